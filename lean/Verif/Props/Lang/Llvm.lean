import Verif.Hl.Match
import Verif.Props.Text
import Verif.Hl.Words
import Verif.Lang.Llvm
import Verif.Spec.Lang.Llvm

/-!
# LLVM IR: every token says something true about its text
-/

namespace Ulight.Llvm

open Spec Spec.Llvm

variable {env : HEnv} {s : HS Unit}

theorem word_iff (c : UInt8) : isKeyword c = true ↔ WordChar c := by
  simp [isKeyword, WordChar, isAlnum_iff, or_assoc]

theorem name_iff (c : UInt8) : isIdentifier c = true ↔ NameChar c := by
  simp [isIdentifier, NameChar, isAlnum_iff, or_assoc]

/-- The table is strictly sorted. -/
theorem keywords_sorted : SortedTable keywords := by decide +kernel

/-- The table has the words of the specification. -/
theorem words_iff (x : Bytes × HT) : x ∈ keywords ↔ x ∈ words := sameWords_iff (by decide +kernel) x

theorem integerType_iff (c : UInt8) (t : Bytes) :
    (c = c!"i" ∧ (c :: t).length ≥ 2 ∧ (Ascii.find_if_not (c :: t) isDigit 1).isNone = true) ↔
      IntegerType (c :: t) := by
  rw [find_if_not_none]
  simp only [isDigit_iff, List.drop_one, List.tail_cons]
  constructor
  · rintro ⟨rfl, h1, h2⟩
    exact ⟨t, rfl, by rintro rfl; simp at h1, h2⟩
  · rintro ⟨ds, h1, h2, h3⟩
    cases h1
    exact ⟨rfl, by have := List.length_pos_iff.2 h2; simp; omega, h3⟩

theorem classifyKeyword_spec (w : Bytes) (hw : w ≠ []) :
    ∃ ty, classifyKeyword w = .ok ty ∧ Word w ty ∧ ty ≠ .none := by
  match w, hw with
  | c :: t, _ =>
    unfold classifyKeyword
    simp only
    split
    · rename_i h
      exact ⟨_, rfl, .integer ((integerType_iff c t).1 h), by decide⟩
    · rename_i h
      cases hl : lookupSorted Prod.fst keywords (c :: t) with
      | none =>
        rw [lookupSorted_eq_none _ _ keywords_sorted] at hl
        refine ⟨_, rfl, .other (fun ty hm => hl _ ((words_iff _).2 hm) rfl) ?_, by decide⟩
        rwa [← integerType_iff]
      | some e =>
        rw [lookupSorted_eq_some _ _ keywords_sorted] at hl
        obtain ⟨hm, he⟩ := hl
        refine ⟨_, rfl, .special ?_, ?_⟩
        · rw [← words_iff, ← he]; exact hm
        · have : ∀ e ∈ keywords, e.2 ≠ .none := by decide +kernel
          exact this e hm

theorem expectNumber_spec : ExpectsOr rules expectNumber
    (fun s => (matchCommonNumber s.rem numberOptions).length = 0) := by
  intro env s g
  unfold expectNumber
  hm
  · refine wp_number (R := rules) (N := numerals) (by simp) ?_ (fun _ _ _ => Tok.number) (by assumption)
      (by assumption) ?_
    · constructor <;> simp [numberOptions, numerals]
    intros
    hm

theorem consumeLineComment_spec (g : Good rules env s) (h : startsWith s.rem b!";" = true) :
    wp consumeLineComment (fun _ s' => Moved rules env s s' ∧ s.idx < s'.idx) env s := by
  unfold consumeLineComment
  hm_hyp h
  hm
  · rename_i h _ _
    intro c hc
    rw [h] at hc
    have := matchCrlfLine_terminator _ c hc
    simp [this]
  · exact fun _ => Tok.lineComment (matchCrlfLine_content _)

theorem expectBlockComment_spec : Expects rules expectBlockComment := by
  intro env s g
  unfold expectBlockComment matchBlockComment HM.highlightEnclosedComment
  hm
  refine wp_enclosed (R := rules) (pre := b!"/*") (suf := b!"*/") (by simp) (by simp) (by simp) (by simp)
    (fun t => Tok.commentDelim (by simp)) (fun t => Tok.commentDelim (by simp))
    (fun _ _ => Tok.blockComment) (by assumption) (by assumption) ?_
  intros
  hm

theorem matchIdentifier_eq (t : Bytes) (h : startsWith t b!"%" = true ∨ startsWith t b!"@" = true) :
    matchIdentifier t = Ascii.length_if t isIdentifier 1 := by
  unfold matchIdentifier
  grind

theorem consumeIdentifier_spec (g : Good rules env s)
    (h : startsWith s.rem b!"%" = true ∨ startsWith s.rem b!"@" = true) :
    wp consumeIdentifier (fun _ s' => Moved rules env s s' ∧ s.idx < s'.idx) env s := by
  unfold consumeIdentifier
  have h1 : 1 ≤ s.rem.length := by rcases h with h | h <;> exact startsWith_length h
  have hl := length_if_le s.rem isIdentifier 1 h1
  have ha := length_if_longest s.rem isIdentifier NameChar name_iff 1 h1
  rw [← matchIdentifier_eq _ h] at hl ha
  hm

theorem keyword_facts (t : Bytes) :
    matchKeyword t ≤ t.length ∧ Longest WordChar t (matchKeyword t) :=
  ⟨(length_if_le t isKeyword 0 (by omega)).2, length_if_zero_longest t isKeyword WordChar word_iff⟩

theorem expectKeywordOrLabel_spec : ExpectsOr rules expectKeywordOrLabel
    (fun s => ∀ c t, s.rem = c :: t → ¬ WordChar c) := by
  intro env s g
  unfold expectKeywordOrLabel
  have hl := keyword_facts s.rem
  hm_hyp hl
  hm
  rename_i h1 h2 h3
  intro c t h
  rw [h3, h] at h2
  exact h2.2 c rfl

theorem stringEscape_spec (g : Good rules env s) (h : s.rem[0]? = some c!"\\") :
    wp stringEscape (fun _ s' => Moved rules env s s' ∧ s.idx < s'.idx) env s := by
  unfold stringEscape
  hm_hyp h
  hm
  split
  · rename_i he
    refine .escape h fun t u ht => ?_
    exact escapeAt_erroneous .hex_2 (by simp [Braced]) s.rem 1 he t u (by rw [ht]; rfl)
  · rename_i he
    refine .hex ?_ (escapeAt_spec .hex_2 (by simp [Braced]) s.rem 1 (by simpa using he))
    exact take_cons_drop h (by hm_len)

theorem consumeString_spec (g : Good rules env s) (h : startsWith s.rem b!"\"" = true) :
    wp consumeString (fun _ s' => Moved rules env s s' ∧ s.idx < s'.idx) env s := by
  unfold consumeString
  hm_hyp h
  hm
  rename_i s1 g1 _ _ _ _
  refine wp_scan (R := rules) (fun n s' => ∀ c ∈ s'.rem.take n, c ≠ c!"\"" ∧ c ≠ c!"\\") ?_ g1
    (Nat.zero_le _) (by simp) (by hm_len)
  intro n s2 g2 _ _ _ hi
  unfold stringStep
  hm

theorem defaultCase_spec {c : UInt8} {t : Bytes} (g : Good rules env s) (h : s.rem = c :: t)
    (hc : c ∉ b!"()[]{},:<=>;%@\" \t\r\n") :
    wp defaultCase (fun _ s' => Moved rules env s s' ∧ s.idx < s'.idx) env s := by
  unfold defaultCase
  hm_hyp h
  hm

theorem consumeAnything_spec {c : UInt8} {t : Bytes} (g : Good rules env s) (h : s.rem = c :: t) :
    wp (consumeAnything c) (fun _ s' => Moved rules env s s' ∧ s.idx < s'.idx) env s := by
  unfold consumeAnything
  have hn := number_ne_zero numberOptions ⟨by decide, by decide, by decide⟩ s.rem c t h
  dsimp only [ne_eq] at hn
  hm_hyp h
  hm
  subst c
  exact Tok.error (by assumption) (by simp [WordChar, Letter, DecDigit])

theorem highlight_tiles (debug : Bool) (opts : Opts) (src : Bytes) :
    ∃ es, highlight debug opts src = .ok (true, es) ∧
      Tiles rules src src.length (es.map Emit.token) := by
  obtain ⟨good, es, h1, rfl, h2⟩ := run_of_wp (m := run) (ext := ()) (R := rules) (debug := debug)
    (opts := opts) (src := src) (P := fun b => b = true) (by
      intro s g hr hi _
      unfold run
      hm
      refine wp_while_moved (R := rules) (fun _ => True) ?_ g trivial (by omega) ?_
      · intro s1 g1 _ _ _ _
        unfold step
        hm
      · intros
        hm
        )
  exact ⟨es, h1, h2⟩

/-- The type of a word is determined by the word. -/
theorem word_unique {w : Bytes} {a b : HT} (ha : Word w a) (hb : Word w b) : a = b := by
  have key : ∀ e ∈ words, ¬ IntegerType e.1 := by
    have : ∀ e ∈ words, ¬ (∃ c t, e.1 = c :: t ∧ c = c!"i" ∧ ∀ x ∈ t, isDigit x = true) := by
      have : ∀ e ∈ words, (e.1.head? != some c!"i" || !e.1.tail.all isDigit) = true := by
        decide +kernel
      rintro e he ⟨c, t, h1, rfl, h2⟩
      have := this e he
      simp [h1] at this
      obtain ⟨x, hx, h3⟩ := this
      simp [h2 x hx] at h3
    rintro e he ⟨ds, h1, h2, h3⟩
    exact this e he ⟨_, ds, h1, rfl, fun x hx => (isDigit_iff x).2 (h3 x hx)⟩
  cases ha with
  | integer h => cases hb with
    | integer _ => rfl
    | special h' => exact absurd h (key _ h')
    | other _ h' => exact absurd h h'
  | special h => cases hb with
    | integer h' => exact absurd h' (key _ h)
    | special h' => exact table_unique keywords_sorted ((words_iff _).2 h) ((words_iff _).2 h')
    | other h' _ => exact absurd h (h' _)
  | other h h' => cases hb with
    | integer h'' => exact absurd h'' h'
    | special h'' => exact absurd h'' (h _)
    | other _ _ => rfl

/-- Words are classified as the table says. -/
theorem C33_llvm (w : Bytes) (hw : w ≠ []) (ty : HT) : classifyKeyword w = .ok ty ↔ Word w ty := by
  obtain ⟨ty', h1, h2, _⟩ := classifyKeyword_spec w hw
  rw [h1]
  constructor
  · intro h
    cases h
    exact h2
  · intro h
    rw [word_unique h h2]

example : Word b!"i32" .keyword_type ∧ Word b!"ret" .keyword_control ∧ Word b!"define" .keyword :=
  ⟨.integer ⟨b!"32", rfl, by decide, by simp [DecDigit]⟩, .special (by decide +kernel),
    (C33_llvm _ (by decide) _).1 (by decide +kernel)⟩

/-- The floating-point types are highlighted as types, except for `half`. -/
theorem C33_llvm_half (w : Bytes) (h : w ∈ floatTypes) :
    classifyKeyword w = .ok (if w = b!"half" then .keyword else .keyword_type) := by
  have : ∀ w ∈ floatTypes, classifyKeyword w = .ok (if w = b!"half" then .keyword else .keyword_type) := by
    decide +kernel
  exact this w h

/-- Every token of an LLVM file is what its type says, and text without a token is whitespace. -/
theorem C38_llvm_tokens (debug : Bool) (opts : Opts) (src : Bytes) :
    ∃ es, highlight debug opts src = .ok (true, es) ∧
      Tiles rules src src.length (es.map Emit.token) :=
  highlight_tiles debug opts src

example : (highlight true {} b!"ret i32 %x ; y").toOption.map (fun r => r.2.map Emit.token) =
    some [⟨0, 3, .keyword_control⟩, ⟨4, 3, .keyword_type⟩, ⟨8, 1, .name_var_delim⟩, ⟨9, 1, .name_var⟩,
      ⟨11, 1, .comment_delim⟩, ⟨12, 2, .comment⟩] := by decide +kernel

end Ulight.Llvm
