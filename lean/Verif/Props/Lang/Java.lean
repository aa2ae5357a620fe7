import Verif.Hl.Parts
import Verif.Hl.Words
import Verif.Lang.Java
import Verif.Hl.Whole
import Verif.Spec.Lang.Java

/-!
# Java: every token says something true about its text
-/

namespace Ulight.Java

open Spec Spec.Java Utf8

set_option maxRecDepth 2000

variable {env : HEnv} {s : HS Unit}

theorem tokens_sorted : SortedTable tokens := by decide +kernel

theorem tokens_some : ∀ e ∈ tokens, e.2 ≠ .none := by decide +kernel

/-- The table has the words of the specification. -/
theorem words_iff (x : Bytes × HT) : x ∈ tokens ↔ x ∈ words := sameWords_iff (by decide +kernel) x

/-- The symbols in the order of the table. -/
def sortedSymbols : List Bytes := (tokens.map Prod.fst).filter fun w =>
  (w.take 1).all fun c => !isAlpha c && c ≠ c!"_"

theorem sortedSymbols_iff (w : Bytes) : w ∈ sortedSymbols ↔ w ∈ symbols := by
  simp [sortedSymbols, symbols, words_iff]

theorem symbols_sorted : sortedSymbols.Pairwise (fun a b => bytesLt a b = true) := by decide +kernel

theorem symbols_tokens : ∀ w ∈ sortedSymbols, ∃ ty, (w, ty) ∈ tokens := by
  intro w hw
  simp only [sortedSymbols, List.mem_filter, List.mem_map] at hw
  obtain ⟨⟨e, he, rfl⟩, _⟩ := hw
  exact ⟨e.2, he⟩

theorem space_iff (c : UInt8) : isWhitespace c = true ↔ Space c := by
  simp [isWhitespace, Space, or_assoc]

theorem matchSymbol_eq (t : Bytes) : matchSymbol t = sortedSymbols.reverse.find? (startsWith t ·) := by
  have e : sortedSymbols = [b!"!", b!"!=", b!"\"", b!"\"\"\"", b!"%", b!"%=", b!"&", b!"&&", b!"&=", b!"(", b!")", b!"*",
      b!"*=", b!"+", b!"++", b!"+=", b!",", b!"-", b!"--", b!"-=", b!"->", b!".", b!"...", b!"/",
      b!"/=", b!":", b!"::", b!";", b!"<", b!"<<", b!"<<=", b!"<=", b!"=", b!"==", b!">", b!">=",
      b!">>", b!">>=", b!">>>", b!">>>=", b!"?", b!"@", b!"[", b!"]", b!"^", b!"^=", b!"{",
      b!"|", b!"|=", b!"||", b!"}", b!"~"] := by decide +kernel
  match t with
  | [] => rw [e]; rfl
  | c :: t =>
    rw [find_tails c t sortedSymbols (by decide +kernel), e]
    clear e
    by_cases hc : c ∈ b!"!\"%&()*+,-./:;<=>?@[]^{|}~"
    · symbol_cases matchSymbol t hc
    · simp only [List.mem_cons, List.not_mem_nil, or_false, not_or] at hc
      have hc' := hc
      simp only [eq_comm (a := c)] at hc'
      simp [matchSymbol, hc, tailsOf, hc']

theorem matchSymbol_facts (t : Bytes) :
    (∃ w ty, matchSymbol t = some w ∧ highlightByCode w = some ty ∧ ty ≠ .none ∧ 0 < w.length ∧
      w.length ≤ t.length ∧ Tok t w.length ty) ∨
    (matchSymbol t = none ∧ ∀ w ∈ symbols, startsWith t w = false) := by
  rw [matchSymbol_eq]
  rcases symbol_facts symbols_sorted symbols_tokens t with ⟨w, ty, h, h1, h2, h3, h4, h5, h6⟩ | h
  · refine Or.inl ⟨w, ty, h, (table_lookup tokens_sorted w ty).2 h1, tokens_some _ h1, ?_, h4,
      Tok.symbol (longestIn_congr sortedSymbols_iff h6) ((words_iff _).1 (by rwa [h5]))⟩
    have : ∀ w ∈ sortedSymbols, 0 < w.length := by decide +kernel
    exact this w h2
  · exact Or.inr ⟨h.1, fun w hw => h.2 w ((sortedSymbols_iff w).2 hw)⟩

theorem consumeWhitespace_spec (g : Good rules env s) :
    wp consumeWhitespace (fun _ s' => Moved rules env s s' ∧
      s'.rem = s.rem.drop (Ascii.length_if s.rem isWhitespace) ∧
      ∀ c, s'.rem[0]? = some c → ¬ Space c) env s := by
  unfold consumeWhitespace
  have h := length_if_zero_longest s.rem isWhitespace Space space_iff
  have h1 := h.1
  have h2 := h.2
  hm

theorem expectLineComment_spec : ExpectsOr rules expectLineComment (fun s => startsWith s.rem b!"//" = false) := by
  intro env s g
  unfold expectLineComment
  rcases Js.matchLineComment_facts s.rem with ⟨h1, h2⟩ | ⟨h1, h2, h3, h4⟩
  · hm
  · hm_hyp h3
    hm

theorem expectBlockComment_spec : ExpectsOr rules expectBlockComment (fun s => startsWith s.rem b!"/*" = false) := by
  intro env s g
  unfold expectBlockComment
  have hb := (blockComment_facts s.rem).2
  simp only [wp_bind, wp_rem, Js.matchBlockComment_eq]
  hm
  · refine wp_blockComment (R := rules) (fun t => Tok.commentDelim (by simp))
      (fun t => Tok.commentDelim (by simp)) (fun _ _ => Tok.blockComment) (by assumption) (by assumption) ?_
    intros
    hm

theorem identifier_tok {t : Bytes} {n : Nat} (h : Identifier CppId.Start CppId.Continue t n) :
    Tok t n ((highlightByCode (t.take n)).getD .name) ∧
      (highlightByCode (t.take n)).getD .name ≠ .none := by
  cases hh : highlightByCode (t.take n) with
  | none =>
    refine ⟨Tok.name h ?_, by decide⟩
    intro ty hty
    have := (table_lookup tokens_sorted (t.take n) ty).2 ((words_iff _).2 hty)
    simp [highlightByCode] at hh
    simp [hh] at this
  | some ty =>
    have := (table_lookup tokens_sorted (t.take n) ty).1 hh
    exact ⟨Tok.keyword h ((words_iff _).1 this), tokens_some _ this⟩

theorem expectIdentifier_spec : ExpectsOr rules expectIdentifier
    (fun s => s.rem ≠ [] → NoFirst CppId.Start s.rem) := by
  intro env s g
  unfold expectIdentifier
  have hl := Cpp.matchIdentifier_facts s.rem
  hm_hyp hl
  hm
  · exact (identifier_tok (by grind)).2
  · exact (identifier_tok (by grind)).1

theorem expectNumber_spec : ExpectsOr rules expectNumber
    (fun s => (matchCommonNumber s.rem numberOptions).length = 0) := by
  intro env s g
  unfold expectNumber
  hm
  · refine wp_number (R := rules) (N := numerals) (by simp [numerals]) ?_ (fun _ _ _ => Tok.number)
      (by assumption) (by assumption) ?_
    · constructor <;> simp [numberOptions, numerals]
    intros
    hm

theorem expectSymbol_spec : ExpectsOr rules expectSymbol
    (fun s => ∀ w ∈ symbols, startsWith s.rem w = false) := by
  intro env s g
  unfold expectSymbol
  rcases matchSymbol_facts s.rem with ⟨w, ty, h1, h2, h3, h4, h5, h6⟩ | ⟨h1, h2⟩
  · rw [wp_bind, wp_rem, h1]
    simp only [h2]
    hm
  · rw [wp_bind, wp_rem, h1]
    hm

theorem matchEscape_facts {t : Bytes} (h : t[0]? = some c!"\\") : EscapeFacts escapes t (matchEscape t) ∧
    0 < (matchEscape t).length := by
  constructor
  · refine escape_facts (by decide) ?_ ?_ (by decide) h
    · simp [escapes, matchEscape, EscapeForm.run]
    · intro c hc u
      simp [escapes] at hc
      have : ∀ c : UInt8, ¬ (c = c!"0" ∨ c = c!"1" ∨ c = c!"2" ∨ c = c!"3") ∧ ¬ (c = c!"4" ∨ c = c!"5" ∨ c = c!"6" ∨ c = c!"7") →
        ¬ (c!"0" ≤ c ∧ c ≤ c!"3") ∧ ¬ (c!"4" ≤ c ∧ c ≤ c!"7") := by
        apply forall_byte
        decide +kernel
      have := this c (by simp [hc])
      simp only [matchEscape]
      simp [hc, this]
  · match t, h with
    | [a], _ => simp [matchEscape]
    | a :: b :: u, h =>
      simp only [matchEscape]
      (repeat' split) <;> simp [matchCommonEscapeAt]

theorem consumeEscape_spec (g : Good rules env s) (h : s.rem[0]? = some c!"\\") :
    wp consumeEscape (fun _ s' => Moved rules env s s' ∧ s.idx < s'.idx) env s := by
  unfold consumeEscape
  obtain ⟨⟨h1, h2, h3⟩, h4⟩ := matchEscape_facts h
  hm
  split
  · exact Tok.badEscape (h3 (by assumption))
  · rename_i h
    exact Tok.escape (h2 (Bool.eq_false_iff.2 h))

theorem characterBody_spec (g : Good rules env s) :
    wp characterBody (fun _ s' => Moved rules env s s') env s := by
  unfold characterBody
  hm
  exact Tok.character rfl (by simp [*, InLine])

theorem expectCharacterLiteral_spec (g : Good rules env s) (h : startsWith s.rem b!"'" = true) :
    wp expectCharacterLiteral (fun b s' => b = true ∧ Good rules env s' ∧ s.idx < s'.idx) env s := by
  unfold expectCharacterLiteral
  hm_hyp h
  hm

theorem stringLoop_spec {fuel : Nat} (g : Good rules env s) (hf : s.rem.length < fuel) :
    wp (HM.loop fuel stringStep 0) (fun _ s' => Moved rules env s s') env s := by
  refine wp_scan (R := rules) (fun n s' => Pending b!"\"" s'.rem n) ?_ g (Nat.zero_le _) (.zero _ _) (by omega)
  intro n s1 g1 h1 h2 h3 h4
  have str : Content b!"\"" s1.rem n → Tok s1.rem n .string := Tok.string (by simp)
  unfold stringStep
  hm
  · exact fun _ => str (h4.atEnd (by assumption) (by assumption))
  · exact fun _ => str (h4.atQuote_one (by assumption) (by assumption))
  · exact fun _ => str (h4.atLine (by assumption) rfl (by assumption))
  · exact .zero _ _
  · exact fun _ => str (h4.atEscape (by assumption) (by assumption))
  · exact h4.succ_one (by assumption) (by assumption) (by assumption) (by assumption) (by assumption)

theorem textLoop_spec {fuel : Nat} (g : Good rules env s) (hf : s.rem.length < fuel) :
    wp (HM.loop fuel textStep 0) (fun _ s' => Moved rules env s s') env s := by
  refine wp_scan (R := rules) (fun n s' => Pending b!"\"\"\"" s'.rem n) ?_ g (Nat.zero_le _) (.zero _ _) (by omega)
  intro n s1 g1 h1 h2 h3 h4
  have str : Content b!"\"\"\"" s1.rem n → Tok s1.rem n .string := Tok.string (by simp)
  unfold textStep
  hm
  · exact fun _ => str (h4.atEnd (by assumption) (by assumption))
  · exact fun _ => str (h4.atQuote (by assumption) (by assumption))
  · exact .zero _ _
  · exact fun _ => str (h4.atEscape (by assumption) (by assumption))
  · exact h4.succ (by assumption) (by assumption) (by assumption) (by simp)

theorem expectStringLiteral_spec (g : Good rules env s) (h : startsWith s.rem b!"\"" = true) :
    wp expectStringLiteral (fun b s' => b = true ∧ Good rules env s' ∧ s.idx < s'.idx) env s := by
  unfold expectStringLiteral
  hm_hyp h
  hm
  refine wp_mono (stringLoop_spec (by assumption) (by hm_len)) ?_
  intro _ s' m
  hm_hyp m
  hm

theorem openingLineBreak_facts (t : Bytes) : openingLineBreak t ≤ t.length ∧
    ∀ c ∈ t.take (openingLineBreak t), Space c := by
  unfold openingLineBreak
  split
  · rename_i h
    obtain ⟨u, rfl⟩ := startsWith_iff.1 h
    simp [Space]
  split
  · rename_i h
    simp at h
    rcases h with h | h <;> obtain ⟨u, rfl⟩ := startsWith_iff.1 h <;> simp [Space]
  · simp

theorem expectTextBlock_spec (g : Good rules env s) (h : startsWith s.rem b!"\"\"\"" = true) :
    wp expectTextBlock (fun b s' => b = true ∧ Good rules env s' ∧ s.idx < s'.idx) env s := by
  unfold expectTextBlock
  hm_hyp h
  hm
  · refine wp_mono (textLoop_spec (by assumption) (by hm_len)) ?_
    intro _ s' m
    hm_hyp m
    hm
  · exact (openingLineBreak_facts _).1
  · exact (openingLineBreak_facts _).2
  · have := (length_if_zero_longest (List.drop 3 s.rem) (fun c => c ≠ 0x0D && c ≠ 0x0A && isWhitespace c)
      (fun c => c ≠ 0x0D ∧ c ≠ 0x0A ∧ Space c) (by simp [← space_iff, and_assoc])).1
    rename_i hr _ _
    rw [hr]
    exact fun c hc => (this c hc).2.2

theorem expectStringOrCharacterOrTextBlock_spec : ExpectsOr rules expectStringOrCharacterOrTextBlock
    (fun s => startsWith s.rem b!"'" = false ∧ startsWith s.rem b!"\"" = false) := by
  intro env s g
  unfold expectStringOrCharacterOrTextBlock
  hm

theorem dottedLoop_spec {fuel : Nat} (g : Good rules env s) (hf : s.rem.length < fuel) :
    wp (HM.loop fuel dottedStep ()) (fun _ s' => Moved rules env s s') env s := by
  refine wp_loop_moved (R := rules) (fun _ _ => True) ?_ g trivial hf
  intro _ s1 g1 h1 h2 _
  unfold dottedStep
  have hl := Cpp.matchIdentifier_facts s1.rem
  hm_hyp hl
  hm

theorem expectAnnotation_spec : ExpectsOr rules expectAnnotation (fun _ => True) := by
  intro env s g
  unfold expectAnnotation
  have hl := Cpp.matchIdentifier_facts (s.rem.drop 1)
  hm
  · refine wp_mono (dottedLoop_spec (by assumption) (by hm_len)) ?_
    intro _ s' m
    hm_hyp m
    hm

theorem number_digit {t : Bytes} (h : (matchCommonNumber t numberOptions).length = 0) :
    ∀ b, t[0]? = some b → ¬ DecDigit b := by
  intro b hb hd
  cases t with
  | nil => simp at hb
  | cons c t =>
    simp at hb
    subst hb
    exact number_ne_zero numberOptions ⟨by decide, by decide, by decide⟩ _ c t rfl
      ((isDigit_iff c).2 hd) h

theorem unknown_tok {t : Bytes} (h : t ≠ []) (sp : ∀ c, t[0]? = some c → ¬ Space c)
    (q1 : startsWith t b!"'" = false)
    (id : t ≠ [] → NoFirst CppId.Start t) (num : (matchCommonNumber t numberOptions).length = 0)
    (sym : ∀ w ∈ symbols, startsWith t w = false) : Tok t (decodeOrReplacement t).2 .error := by
  obtain ⟨c, p, rest, h1, h2, h3, h4⟩ := firstChar_of_decode h
  refine Tok.unknown h1 h2 h3 (id h c p rest h1 h2) ?_ ?_
  · intro w hw
    rw [occursAt_zero, sym w hw]
    simp
  · intro b hb
    refine ⟨number_digit num b hb, sp b hb, ?_⟩
    cases t with
    | nil => simp at hb
    | cons a t =>
      simp only [List.getElem?_cons_zero, Option.some.injEq] at hb
      subst hb
      rw [startsWith_cons_one] at q1
      simpa using q1

theorem step_spec (g : Good rules env s) (h : s.rem ≠ []) :
    wp step (fun _ s' => Good rules env s' ∧ s.idx < s'.idx) env s := by
  unfold step expectToken
  hm_hyp h
  hm
  · have := g.len
    have := List.length_pos_iff.2 h
    simp_all
    omega
  exact unknown_tok (by assumption) (by assumption) (by assumption) (by assumption) (by assumption)
    (by assumption)

theorem highlight_tiles (debug : Bool) (opts : Opts) (src : Bytes) :
    ∃ es, highlight debug opts src = .ok (true, es) ∧
      Tiles rules src src.length (es.map Emit.token) := by
  obtain ⟨good, es, h1, rfl, h2⟩ := run_of_wp (m := run) (ext := ()) (R := rules) (debug := debug)
    (opts := opts) (src := src) (P := fun b => b = true) (by
      intro s g hr hi _
      unfold run
      hm
      refine wp_while_moved (R := rules) (fun _ => True) ?_ g trivial (by omega) ?_
      · intro s1 g1 _ _ _ _
        hm
      · intros
        hm
        )
  exact ⟨es, h1, h2⟩

/-- Words are looked up as the specification says. -/
theorem C33_java (w : Bytes) (ty : HT) : highlightByCode w = some ty ↔ (w, ty) ∈ words :=
  (table_lookup tokens_sorted w ty).trans (words_iff _)

example : highlightByCode b!"class" = some .keyword ∧ highlightByCode b!"null" = some .null ∧
    highlightByCode b!"clas" = none := by decide +kernel

/-- Every token of a Java file is what its type says, and text without a token is whitespace. -/
theorem C43_java_tokens (debug : Bool) (opts : Opts) (src : Bytes) :
    ∃ es, highlight debug opts src = .ok (true, es) ∧
      Tiles rules src src.length (es.map Emit.token) :=
  highlight_tiles debug opts src

/-- What is highlighted. -/
def tokensOf (src : Bytes) : Option (List Token) :=
  (highlight true {} src).toOption.map (fun r => r.2.map Emit.token)

example : tokensOf b!"\"\"\"\n x\\n\"\"\"" =
    some [⟨0, 3, .string_delim⟩, ⟨4, 2, .string⟩, ⟨6, 2, .string_escape⟩, ⟨8, 3, .string_delim⟩] := by
  decide +kernel

example : tokensOf b!"@a.b c(0x1.8p3) /* */ // x" =
    some [⟨0, 1, .name_attr_delim⟩, ⟨1, 1, .name_attr⟩, ⟨2, 1, .name_attr_delim⟩, ⟨3, 1, .name_attr⟩,
      ⟨5, 1, .name⟩, ⟨6, 1, .symbol_parens⟩, ⟨7, 2, .number_decor⟩, ⟨9, 1, .number⟩, ⟨10, 1, .number_delim⟩,
      ⟨11, 1, .number⟩, ⟨12, 1, .number_delim⟩, ⟨13, 1, .number⟩, ⟨14, 1, .symbol_parens⟩,
      ⟨16, 2, .comment_delim⟩, ⟨18, 1, .comment⟩, ⟨19, 2, .comment_delim⟩, ⟨22, 2, .comment_delim⟩,
      ⟨24, 2, .comment⟩] := by decide +kernel

/-- A character literal outside of ASCII is cut after its first byte: the rest is an error, and the
closing quotation mark begins another literal. -/
theorem C31_java_splits : IsUtf8 [0x27, 0xC3, 0xA9, 0x27, 0x3B] ∧
    tokensOf [0x27, 0xC3, 0xA9, 0x27, 0x3B] =
      some [⟨0, 1, .string_delim⟩, ⟨1, 1, .string⟩, ⟨2, 1, .error⟩, ⟨3, 1, .string_delim⟩, ⟨4, 1, .string⟩] ∧
    ¬ IsUtf8 (([0x27, 0xC3, 0xA9, 0x27, 0x3B].drop 1).take 1) := by
  exact ⟨⟨[0x27, 0xE9, 0x27, 0x3B], by simp [IsScalar], by decide +kernel⟩, by decide +kernel,
    not_isUtf8_one (by decide)⟩

/-- Valid literals are reported as errors: numbers that end with a point, `$` in identifiers, and a
repeated `u` in a Unicode escape; a short Unicode escape takes the closing quotation mark. -/
theorem C43_differences :
    tokensOf b!"1." = some [⟨0, 2, .error⟩] ∧
    tokensOf b!"1.f" = some [⟨0, 3, .error⟩] ∧
    tokensOf b!"$x" = some [⟨0, 1, .error⟩, ⟨1, 1, .name⟩] ∧
    tokensOf b!"\"\\uu0041\"" = some [⟨0, 1, .string_delim⟩, ⟨1, 6, .error⟩, ⟨7, 1, .string⟩, ⟨8, 1, .string_delim⟩] ∧
    tokensOf b!"\"\\u12\"" = some [⟨0, 1, .string_delim⟩, ⟨1, 5, .error⟩] := by
  refine ⟨by decide +kernel, by decide +kernel, by decide +kernel, by decide +kernel, by decide +kernel⟩

end Ulight.Java
