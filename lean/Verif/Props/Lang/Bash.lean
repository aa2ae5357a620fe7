import Verif.Hl.Match
import Verif.Spec.Lang.Bash
import Verif.Lang.Bash

/-!
# Bash: every token says something true about its text
-/

namespace Ulight.Bash

open Spec Spec.Bash

variable {env : HEnv} {s : HS State}

theorem terminator_iff (c : UInt8) : isUnquotedTerminator c = true ↔ Terminator c := by
  simp [isUnquotedTerminator, isWhitespace, isMetacharacter, isBlank, Terminator, Space]
  grind

theorem special_iff (c : UInt8) : isSpecialParameter c = true ↔ Special c := by
  simp [isSpecialParameter, Special]

theorem idStart_iff (c : UInt8) : isIdStart c = true ↔ NameStart c := by
  simp [isIdStart, NameStart, isAlpha_iff]

theorem id_iff (c : UInt8) : isId c = true ↔ NameChar c := by
  simp [isId, NameChar, NameStart, isAlnum_iff]
  grind

theorem wordLength_le (ctx : Context) (t : Bytes) : wordLength ctx t ≤ t.length := by
  induction t with
  | nil => simp [wordLength]
  | cons c t ih =>
    unfold wordLength
    split <;> simp <;> omega

theorem startsWithSubstitution_facts {t : Bytes} (h : startsWithSubstitution t = true) :
    ∃ c u, t = c!"$" :: c :: u ∧ isSubstitutionStart c = true := by
  match t, h with
  | a :: b :: u, h =>
    simp [startsWithSubstitution] at h
    exact ⟨b, u, by rw [h.1], h.2⟩

theorem word_spec (ctx : Context) (t : Bytes) : Word t (wordLength ctx t) := by
  induction t with
  | nil => simp [wordLength, Word]
  | cons c t ih =>
    unfold wordLength
    split
    · rename_i h
      refine ⟨by simp, ?_⟩
      intro a ha
      simp at ha
      subst ha
      simp only [Bool.or_eq_true, terminator_iff, Bool.and_eq_true, decide_eq_true_eq] at h
      rcases h with (h | h) | h
      · exact Or.inl h
      · obtain ⟨_, _, e, _⟩ := startsWithSubstitution_facts h
        cases e
        simp
      · simp [h.2]
    · rename_i h
      obtain ⟨h1, h2⟩ := ih
      refine ⟨?_, ?_⟩
      · simp only [List.take_succ_cons, List.mem_cons]
        rintro a (rfl | ha)
        · rw [← terminator_iff]
          grind
        · exact h1 a ha
      · simpa using h2

theorem word_pos (ctx : Context) {c : UInt8} {t u : Bytes} (h : t = c :: u)
    (h1 : isUnquotedTerminator c = false) (h2 : startsWithSubstitution t = false)
    (h3 : c ≠ c!"}" ∨ ctx ≠ .parameter_sub) : wordLength ctx t ≠ 0 := by
  subst h
  unfold wordLength
  rw [if_neg (by simp [h1, h2]; grind)]
  omega

theorem consumeWord_spec (ctx : Context) (g : Good rules env s) (h : wordLength ctx s.rem ≠ 0) :
    wp (consumeWord ctx) (fun _ s' => Moved rules env s s' ∧ s.idx < s'.idx) env s := by
  unfold consumeWord
  have h1 := wordLength_le ctx s.rem
  have h2 := word_spec ctx s.rem
  hm
  split
  · rename_i h3
    exact Tok.option h2 (by obtain ⟨t, e⟩ := startsWith_iff.1 h3; simp [e])
  · exact Tok.argument h2

theorem consumeEscape_spec (g : Good rules env s) (h : s.rem[0]? = some c!"\\") :
    wp consumeEscape (fun _ s' => Moved rules env s s' ∧ s.idx < s'.idx) env s := by
  unfold consumeEscape
  hm_hyp h
  have h2 : startsWith s.rem b!"\\\n" = true → s.rem[1]? = some 0x0A := by
    intro h
    obtain ⟨t, e⟩ := startsWith_iff.1 h
    simp [e]
  hm
  · rename_i e _ _
    intro c hc
    rw [e, show (s.rem.drop 1).take 1 = [0x0A] by grind [take_one_iff]] at hc
    simp_all [Space]
  · rcases e : s.rem[1]? with _ | c
    · have := List.getElem?_eq_none_iff.1 e
      rw [Nat.min_eq_right (by omega), show s.rem.length = 1 by omega]
      exact Tok.continuation (by simp [take_one_iff, h]) (Or.inr e)
    · have := (List.getElem?_eq_some_iff.1 e).1
      rw [Nat.min_eq_left (by omega)]
      exact Tok.escape (c := c) (by simp [take_two_iff, h, e])

theorem matchSingleQuoted_facts {t : Bytes} (h : t[0]? = some c!"'") :
    (∃ n, matchSingleQuoted t = ⟨n + 2, true⟩ ∧ n + 2 ≤ t.length ∧
      Longest (· ≠ c!"'") (t.drop 1) n ∧ t[n + 1]? = some c!"'") ∨
    ∃ n, matchSingleQuoted t = ⟨n + 1, false⟩ ∧ n + 1 = t.length ∧ Longest (· ≠ c!"'") (t.drop 1) n := by
  have h1 := (List.getElem?_eq_some_iff.1 h).1
  have h2 : startsWith t b!"'" = true := by
    cases t <;> simp_all
  have := find_if_longest t (· == c!"'") (· ≠ c!"'") (by simp) 1 h1
  unfold matchSingleQuoted
  simp only [h2, Bool.not_true, Bool.false_eq_true, if_false]
  rcases this with ⟨j, c, e, h3, h4, h5, h6, h7⟩ | ⟨e, h3⟩
  · refine Or.inl ⟨j - 1, by rw [e]; simp; omega, by omega, h7, ?_⟩
    rw [Nat.sub_add_cancel h3, h5]
    simpa using h6
  · exact Or.inr ⟨t.length - 1, by rw [e]; simp; omega, by omega, h3⟩

theorem highlightString_spec (g : Good rules env s) (h : s.rem[0]? = some c!"'") :
    wp (highlightString (matchSingleQuoted s.rem))
      (fun _ s' => Moved rules env s s' ∧ s.idx < s'.idx) env s := by
  unfold highlightString
  rcases matchSingleQuoted_facts h with ⟨n, e, h1, h2, h3⟩ | ⟨n, e, h1, h2⟩ <;> rw [e]
  · hm_hyp h
    hm
    rename_i e1 _ _ _ _ _ e2 _ _ _
    refine Tok.quote ?_
    simp [e2, e1, take_one_iff, h3]
  · hm_hyp h
    hm

theorem matchComment_facts {t : Bytes} (h : t[0]? = some c!"#") :
    1 ≤ matchComment t ∧ matchComment t ≤ t.length ∧
      Longest (· ≠ 0x0A) (t.drop 1) (matchComment t - 1) := by
  have h1 := (List.getElem?_eq_some_iff.1 h).1
  have h2 : startsWith t b!"#" = true := by
    cases t <;> simp_all
  have := find_if_longest t (· == 0x0A) (· ≠ 0x0A) (by simp) 1 h1
  unfold matchComment
  simp only [h2, Bool.not_true, Bool.false_eq_true, if_false]
  rcases this with ⟨j, c, e, h3, h4, h5, h6, h7⟩ | ⟨e, h3⟩ <;> rw [e]
  · exact ⟨h3, by simp; omega, h7⟩
  · exact ⟨h1, by simp, h3⟩

theorem consumeComment_spec (g : Good rules env s) (h : s.rem[0]? = some c!"#") :
    wp consumeComment (fun _ s' => Moved rules env s s' ∧ s.idx < s'.idx) env s := by
  unfold consumeComment
  have hc := matchComment_facts h
  hm_hyp hc
  hm_hyp h
  hm

theorem matchOperator_facts {t : Bytes} {c : UInt8} {u : Bytes} (h : t = c :: u)
    (hc : c = c!"|" ∨ c = c!"&" ∨ c = c!";" ∨ c = c!"<" ∨ c = c!">") :
    ∃ op, matchOperator t = some op ∧ 1 ≤ op.length ∧ op.length ≤ t.length ∧
      LongestIn operators t op.length := by
  have pos : ∀ op ∈ operators, 1 ≤ op.length := by decide
  have key : ∃ op ∈ operators, matchOperator t = some op ∧ startsWith t op = true ∧
      ∀ v ∈ operators, op.length < v.length → startsWith t v = false := by
    subst h
    clear pos
    rcases hc with rfl | rfl | rfl | rfl | rfl <;> simp [matchOperator, operators] <;>
      (repeat' split) <;> cases u <;> simp_all <;> grind
  obtain ⟨op, h1, h2, h3, h4⟩ := key
  exact ⟨op, h2, pos op h1, startsWith_length h3, longestIn_of h1 h3 h4⟩

theorem consumeOperator_spec (g : Good rules env s) {c : UInt8} {u : Bytes} (h : s.rem = c :: u)
    (hc : c = c!"|" ∨ c = c!"&" ∨ c = c!";" ∨ c = c!"<" ∨ c = c!">") :
    wp consumeOperator (fun _ s' => Moved rules env s s' ∧ s.idx < s'.idx) env s := by
  unfold consumeOperator
  obtain ⟨op, h1, h2, h3, h4⟩ := matchOperator_facts h hc
  rw [wp_bind, wp_rem, h1]
  hm

theorem closeParen_spec (ctx : Context) (g : Good rules env s) (h : s.rem[0]? = some c!")") :
    wp (closeParen ctx) (fun r s' => Moved rules env s s' ∧ s.idx < s'.idx ∧
      (ctx = .file → r = false)) env s := by
  unfold closeParen
  hm_hyp h
  hm

theorem interpolation_variable {t : Bytes} {c : UInt8} (h0 : t[0]? = some c!"$") (h1 : t[1]? = some c)
    (hc : isIdStart c = true) :
    matchIdentifier (t.drop 1) + 1 ≤ t.length ∧ matchIdentifier (t.drop 1) ≠ 0 ∧
      Tok t (matchIdentifier (t.drop 1) + 1) .string_interpolation := by
  match t, h0, h1 with
  | a :: b :: u, h0, h1 =>
    simp at h0 h1
    subst h0 h1
    have hl := length_if_le (b :: u) isId 1 (by simp)
    have ha := length_if_longest (b :: u) isId NameChar id_iff 1 (by simp)
    have e : matchIdentifier (b :: u) = Ascii.length_if (b :: u) isId 1 := by
      simp [matchIdentifier, Ascii.length_if_head_tail, hc]
      rfl
    simp only [List.drop_succ_cons, List.drop_zero] at *
    rw [e]
    simp at hl
    refine ⟨by simp; omega, by omega, ?_⟩
    obtain ⟨m, hm⟩ : ∃ m, Ascii.length_if (b :: u) isId 1 = m + 1 := ⟨_, (Nat.sub_add_cancel hl.1).symm⟩
    rw [hm] at ha ⊢
    have hb := (idStart_iff b).1 hc
    refine Tok.variable (c := b) (t := u.take m) (by simp) hb ?_
    simp [Longest] at ha ⊢
    exact ⟨⟨Or.inl hb, ha.1⟩, ha.2⟩

theorem consumeSubstitution_spec {rec : Context → HM State Unit} {n : Nat}
    (hrec : ∀ ctx (s : HS State), Good rules env s → s.rem.length < n →
      wp (rec ctx) (fun _ s' => Moved rules env s s') env s)
    (g : Good rules env s) (h : startsWithSubstitution s.rem = true) (hn : s.rem.length ≤ n) :
    wp (consumeSubstitution rec) (fun _ s' => Moved rules env s s' ∧ s.idx < s'.idx) env s := by
  unfold consumeSubstitution
  obtain ⟨c, u, e, hc⟩ := startsWithSubstitution_facts h
  have h0 : s.rem[0]? = some c!"$" := by simp [e]
  have h1 : s.rem[1]? = some c := by simp [e]
  have h2 := fun hc => interpolation_variable h0 h1 hc
  have h3 : s.rem.length = u.length + 2 := by simp [e]
  have h4 : startsWith s.rem b!"$" = true := by simp [e]
  have hs : isSpecialParameter c = true → Tok s.rem 2 .string_interpolation := fun h =>
    Tok.special (c := c) (by simp [take_two_iff, h0, h1]) ((special_iff c).1 h)
  clear e
  simp only [isSubstitutionStart, Bool.or_eq_true, decide_eq_true_eq] at hc
  rw [wp_bind, wp_rem, h1]
  hm
  · exact hs (by assumption)
  · exact (h2 (by grind)).2.2

theorem consumeDoubleQuoted_spec {rec : Context → HM State Unit} {n : Nat}
    (hrec : ∀ ctx (s : HS State), Good rules env s → s.rem.length < n →
      wp (rec ctx) (fun _ s' => Moved rules env s s') env s)
    (g : Good rules env s) (hn : s.rem.length ≤ n) :
    wp (consumeDoubleQuoted rec) (fun _ s' => Moved rules env s s') env s := by
  unfold consumeDoubleQuoted
  hm
  refine wp_scan (R := rules) (fun n s' => ∀ c ∈ s'.rem.take n, c ≠ c!"\"") ?_ g
    (Nat.zero_le _) (by simp) (by hm_len)
  intro n s2 g2 _ _ _ hi
  unfold doubleQuotedStep
  hm
  · rename_i hany _ _ _ e _ _
    obtain ⟨a, ha, _⟩ := (Option.any_eq_true _ _).1 hany
    refine Tok.escape (c := a) ?_
    simp only [e, take_two_iff, List.getElem?_drop]
    simp_all
  · have := g.len
    omega

theorem commandsSwitch_spec {rec : Context → HM State Unit} {n : Nat} (ctx : Context)
    (hrec : ∀ ctx (s : HS State), Good rules env s → s.rem.length < n →
      wp (rec ctx) (fun _ s' => Moved rules env s s') env s)
    (g : Good rules env s) (hn : s.rem.length ≤ n) {c : UInt8} {t : Bytes} (h : s.rem = c :: t) :
    wp (commandsSwitch rec ctx c) (fun r s' => Moved rules env s s' ∧ s.idx < s'.idx ∧
      (ctx = .file → r = false)) env s := by
  unfold commandsSwitch
  have h0 : s.rem[0]? = some c := by simp [h]
  have hw := word_pos ctx h
  have hl : s.rem.length = t.length + 1 := by simp [h]
  have hb1 : matchBlank s.rem ≤ s.rem.length := (length_if_le s.rem isBlank 0 (by omega)).2
  have hb2 : c = 32 ∨ c = 9 → matchBlank s.rem ≠ 0 := fun hc =>
    Nat.ne_of_gt (length_if_pos (p := isBlank) h (by rcases hc with rfl | rfl <;> rfl))
  have hb3 : rules.gap s.rem (matchBlank s.rem) := by
    have := length_if_zero_longest s.rem isBlank (fun c => isBlank c = true) (fun _ => Iff.rfl)
    intro a ha
    have := this.1 a ha
    simp [isBlank, Space] at *
    grind
  have hb4 : c = 11 ∨ c = 13 ∨ c = 10 → rules.gap s.rem 1 := by
    intro hc a ha
    simp [h] at ha
    subst ha
    simp [Space]
    grind
  have ht : isUnquotedTerminator c = true → c = 92 ∨ c = 39 ∨ c = 34 ∨ c = 32 ∨ c = 9 ∨ c = 11 ∨
      c = 13 ∨ c = 10 ∨ c = 40 ∨ c = 41 ∨ c = 124 ∨ c = 38 ∨ c = 59 ∨ c = 60 ∨ c = 62 := by
    rw [terminator_iff]
    simp [Terminator, Space]
    grind
  have ht' : isUnquotedTerminator c = false ∨ isUnquotedTerminator c = true := by
    cases isUnquotedTerminator c <;> simp
  have hs : startsWithSubstitution s.rem = true → c = 36 := by
    intro h'
    obtain ⟨_, _, e, _⟩ := startsWithSubstitution_facts h'
    rw [h] at e
    simp at e
    exact e.1
  clear h0 hl
  hm
  all_goals grind

theorem commands_spec (n : Nat) : ∀ (ctx : Context) (s : HS State), Good rules env s →
    s.rem.length < n → wp (consumeCommands n ctx)
      (fun _ s' => Moved rules env s s' ∧ (ctx = .file → s'.rem = [])) env s := by
  induction n with
  | zero => intros; omega
  | succ n ih =>
    intro ctx s g hn
    have ih' := fun ctx s g hn => wp_mono (ih ctx s g hn) (fun _ _ h => h.1)
    unfold consumeCommands
    have hl := g.len
    hm
    refine wp_loop_moved (R := rules) (fun _ _ => True) ?_ g trivial (by omega)
    intro _ s1 g1 _ _ _
    unfold commandsStep
    hm

theorem consumeCommands_spec {n : Nat} {ctx : Context} (g : Good rules env s) (hn : s.rem.length < n) :
    wp (consumeCommands n ctx) (fun _ s' => Moved rules env s s' ∧ (ctx = .file → s'.rem = [])) env s :=
  commands_spec n ctx s g hn

theorem highlight_tiles (debug : Bool) (opts : Opts) (src : Bytes) :
    ∃ es, highlight debug opts src = .ok (true, es) ∧
      Tiles rules src src.length (es.map Emit.token) := by
  obtain ⟨good, es, h1, rfl, h2⟩ := run_of_wp (m := run) (ext := .before_command) (R := rules)
    (debug := debug) (opts := opts) (src := src) (P := fun b => b = true) (by
      intro s g hr hi _
      unfold run
      hm)
  exact ⟨es, h1, h2⟩

/-- Every token of a Bash script is what its type says, and text without a token is whitespace. -/
theorem C39_bash_tokens (debug : Bool) (opts : Opts) (src : Bytes) :
    ∃ es, highlight debug opts src = .ok (true, es) ∧
      Tiles rules src src.length (es.map Emit.token) :=
  highlight_tiles debug opts src

example : (highlight true {} b!"ls -l \"$x\" | y").toOption.map (fun r => r.2.map Emit.token) =
    some [⟨0, 2, .name_shell_command⟩, ⟨3, 2, .name_shell_option⟩, ⟨6, 1, .string_delim⟩,
      ⟨7, 2, .string_interpolation⟩, ⟨9, 1, .string_delim⟩, ⟨11, 1, .symbol_op⟩,
      ⟨13, 1, .string⟩] := by decide +kernel

/-- `match_operator` (include/ulight/impl/lang/bash.hpp) is documented to match operators; it does not
match a plus sign, and takes an asterisk for one. -/
theorem C39_operator_plus : matchOperator b!"+" = none ∧ matchOperator b!"*" = some b!"+" := by
  decide +kernel

/-- The command after a pipe is highlighted as an argument, because operators do not reset the state. -/
theorem C39_command_after_pipe :
    (highlight true {} b!"a|b c|d").toOption.map (fun r => r.2.map Emit.token) =
      some [⟨0, 1, .name_shell_command⟩, ⟨1, 1, .symbol_op⟩, ⟨2, 1, .name_shell_command⟩,
        ⟨4, 1, .string⟩, ⟨5, 1, .symbol_op⟩, ⟨6, 1, .string⟩] := by decide +kernel

/-- The length of a variable, as in `${#x}`, is taken for a comment. -/
theorem C39_length_is_comment :
    (highlight true {} b!"${#x} y").toOption.map (fun r => r.2.map Emit.token) =
      some [⟨0, 2, .string_interpolation_delim⟩, ⟨2, 1, .comment_delim⟩, ⟨3, 4, .comment⟩] := by
  decide +kernel

end Ulight.Bash
