import Verif.Hl.Parts
import Verif.Hl.Whole
import Verif.Hl.Words
import Verif.Lang.Rust
import Verif.Spec.Lang.Rust

/-!
# Rust: every token says something true about its text
-/

namespace Ulight.Rust

open Spec Spec.Rust Utf8

set_option maxRecDepth 2000

variable {env : HEnv} {s : HS Unit}

theorem tokens_sorted : SortedTable tokens := by decide +kernel

theorem tokens_some : ∀ e ∈ tokens, e.2 ≠ .none := by decide +kernel

/-- The table has the words of the specification. -/
theorem words_iff (x : Bytes × HT) : x ∈ tokens ↔ x ∈ words := sameWords_iff (by decide +kernel) x

/-- The symbols in the order of the table. -/
def sortedSymbols : List Bytes := (tokens.map Prod.fst).filter fun w =>
  (w.take 1).all (fun c => !isAlpha c) && w ≠ b!"<-"

theorem sortedSymbols_iff (w : Bytes) : w ∈ sortedSymbols ↔ w ∈ symbols := by
  simp [sortedSymbols, symbols, words_iff]

theorem symbols_sorted : sortedSymbols.Pairwise (fun a b => bytesLt a b = true) := by decide +kernel

theorem symbols_tokens : ∀ w ∈ sortedSymbols, ∃ ty, (w, ty) ∈ tokens := by
  intro w hw
  simp only [sortedSymbols, List.mem_filter, List.mem_map] at hw
  obtain ⟨⟨e, he, rfl⟩, _⟩ := hw
  exact ⟨e.2, he⟩

theorem space_iff (c : Nat) : isWhitespace c = true ↔ Space c := by
  simp [isWhitespace, Space, or_assoc]

theorem matchSymbol_eq (t : Bytes) : matchSymbol t = sortedSymbols.reverse.find? (startsWith t ·) := by
  have e : sortedSymbols = [b!"!", b!"!=", b!"%", b!"%=", b!"&", b!"&&", b!"&=", b!"(", b!")", b!"*", b!"*=", b!"+", b!"+=",
      b!",", b!"-", b!"-=", b!"->", b!".", b!"..", b!"...", b!"..=", b!"/", b!"/=", b!":", b!"::",
      b!";", b!"<", b!"<<", b!"<<=", b!"<=", b!"=", b!"==", b!"=>", b!">", b!">=", b!">>", b!">>=",
      b!"?", b!"@", b!"[", b!"\\", b!"]", b!"^", b!"^=", b!"{", b!"|", b!"|=", b!"||", b!"}"] := by decide +kernel
  match t with
  | [] => rw [e]; rfl
  | c :: t =>
    rw [find_tails c t sortedSymbols (by decide +kernel), e]
    clear e
    by_cases hc : c ∈ b!"!%&()*+,-./:;<=>?@[\\]^{|}"
    · symbol_cases matchSymbol t hc
    · simp only [List.mem_cons, List.not_mem_nil, or_false, not_or] at hc
      have hc' := hc
      simp only [eq_comm (a := c)] at hc'
      simp [matchSymbol, hc, tailsOf, hc']

theorem matchSymbol_facts (t : Bytes) :
    (∃ w ty, matchSymbol t = some w ∧ highlightByCode w = some ty ∧ ty ≠ .none ∧ 0 < w.length ∧
      w.length ≤ t.length ∧ Tok t w.length ty) ∨
    (matchSymbol t = none ∧ ∀ w ∈ symbols, startsWith t w = false) := by
  rw [matchSymbol_eq]
  rcases symbol_facts symbols_sorted symbols_tokens t with ⟨w, ty, h, h1, h2, h3, h4, h5, h6⟩ | h
  · refine Or.inl ⟨w, ty, h, (table_lookup tokens_sorted w ty).2 h1, tokens_some _ h1, ?_, h4,
      Tok.symbol (longestIn_congr sortedSymbols_iff h6) ((words_iff _).1 (by rwa [h5]))⟩
    have : ∀ w ∈ sortedSymbols, 0 < w.length := by decide +kernel
    exact this w h2
  · exact Or.inr ⟨h.1, fun w hw => h.2 w ((sortedSymbols_iff w).2 hw)⟩

theorem whitespace_spec (t : Bytes) : ∃ n, Utf8.length_if t isWhitespace = .ok n ∧ n ≤ t.length ∧ LongestChars Space t n :=
  length_if_chars _ _ space_iff t

theorem expectLineComment_spec : ExpectsOr rules expectLineComment (fun s => startsWith s.rem b!"//" = false) := by
  intro env s g
  unfold expectLineComment
  rcases Js.matchLineComment_facts s.rem with ⟨h1, h2⟩ | ⟨h1, h2, h3, h4⟩
  · hm
  · hm_hyp h3
    hm

theorem expectBlockComment_spec : ExpectsOr rules expectBlockComment (fun s => startsWith s.rem b!"/*" = false) := by
  intro env s g
  unfold expectBlockComment
  have hb := (blockComment_facts s.rem).2
  simp only [wp_bind, wp_rem, Js.matchBlockComment_eq]
  hm
  · refine wp_blockComment (R := rules) (fun t => Tok.commentDelim (by simp))
      (fun t => Tok.commentDelim (by simp)) (fun _ _ => Tok.blockComment) (by assumption) (by assumption) ?_
    intros
    hm

theorem consumeWhitespace_spec (g : Good rules env s) :
    wp consumeWhitespace (fun _ s' => Moved rules env s s' ∧ NoFirst Space s'.rem) env s := by
  unfold consumeWhitespace
  obtain ⟨n, h1, h2, h3⟩ := length_if_chars _ _ space_iff s.rem
  have h4 := LongestChars.noFirst h3
  rw [wp_bind, wp_rem, wp_bind, wp_lift]
  refine ⟨n, h1, ?_⟩
  hm

theorem expectIdentifierOrKeyword_spec : ExpectsOr rules expectIdentifierOrKeyword
    (fun s => s.rem ≠ [] → NoFirst CppId.Start s.rem) := by
  intro env s g
  unfold expectIdentifierOrKeyword
  rcases Cpp.matchIdentifier_facts s.rem with ⟨h1, ⟨h2, h3⟩ | ⟨h2, h3⟩⟩
  · hm
  · rw [wp_bind, wp_rem, if_neg (by omega)]
    cases hh : highlightByCode (s.rem.take (Cpp.matchIdentifier s.rem)) with
    | none =>
      have hn : ∀ ty, (s.rem.take (Cpp.matchIdentifier s.rem), ty) ∉ words := by
        intro ty hty
        have := (table_lookup tokens_sorted _ ty).2 ((words_iff _).2 hty)
        simp [highlightByCode] at hh
        simp [hh] at this
      have e := startsWith_drop_iff (s := s.rem) (n := Cpp.matchIdentifier s.rem) (q := c!"!")
      simp only [e]
      hm
    | some ty =>
      have ht := (table_lookup tokens_sorted _ ty).1 hh
      have hn := tokens_some _ ht
      have hk : Tok _ _ _ := Tok.keyword h3 ((words_iff _).1 ht)
      hm
theorem number_fits : Fits numberOptions numerals := by
  constructor <;> try simp [numberOptions, numerals]
  refine ⟨fun t => (Cpp.matchIdentifier_facts t).1, ?_⟩
  intro a t ha h
  refine ⟨t, ?_⟩
  rcases Cpp.matchIdentifier_facts (a ++ t) with ⟨_, ⟨h2, _⟩ | ⟨_, h3⟩⟩
  · rw [h] at h2
    exact absurd (List.length_eq_zero_iff.1 h2) ha
  · rwa [h] at h3

theorem matchNumber_facts (t : Bytes) : ∃ r, matchNumber t = .ok r ∧
    (r.length = 0 ∧ (matchCommonNumber t numberOptions).length = 0 ∨
      ∃ p rest, t = p.text ++ rest ∧ numerals.Parts p ∧ LengthsOf r p ∧
        (r.erroneous = true → Tok t r.length .error)) := by
  rcases C23_parts t numberOptions (fun f h => (number_fits.matchSuffix f h).1) with h | ⟨p, hp⟩
  · refine ⟨{}, ?_, Or.inl ⟨rfl, by rw [h]⟩⟩
    unfold matchNumber
    simp [h, NumberResult.isNonInteger]
  obtain ⟨rest, ht⟩ := hp.text
  have hP := number_fits.parts hp
  have hl := hp.lengths
  have hr := hp.reason number_fits.noEmpty
  unfold matchNumber
  dsimp only
  generalize matchCommonNumber t numberOptions = r at hl hr
  have htake : t.take r.length = p.text := by
    rw [ht, hl.length, List.take_left]
  have hE : r.erroneous = true → Tok t r.length .error := by
    intro he
    exact Tok.number (.error (p := p) htake hP (hr he))
  have hsuf : (t.drop (r.length - r.suffix)).take r.suffix = p.suffix := by
    rw [ht, hl.length, hl.suffix]
    have : p.text.length - p.suffix.length =
        (p.sign ++ p.pre ++ p.integer ++ p.point ++ p.fraction ++ p.expSep ++ p.expDigits).length := by
      simp only [NumberParts.text, List.length_append, Nat.add_sub_cancel]
    rw [this]
    simp only [NumberParts.text]
    rw [List.append_assoc _ p.suffix, List.drop_left, List.take_left]
  split
  · rename_i hi
    simp [NumberResult.isNonInteger, hl.point, hl.expSep, hl.expDigits] at hi
    split
    · rename_i hs
      rw [hsuf]
      rw [hl.suffix] at hs
      cases hc : p.suffix with
      | nil => simp [hc] at hs
      | cons c u =>
        refine ⟨_, rfl, Or.inr ⟨p, rest, ht, hP, ⟨hl.1, hl.2, hl.3, hl.4, hl.5, hl.6, hl.7, hl.8, hl.9, hl.10⟩, ?_⟩⟩
        intro he
        simp at he
        rcases he with (he | he) | he
        · exact hE he
        · exact Tok.badNumber htake hP hi.1 (by simp [hc, he])
        · exact Tok.badNumber htake hP hi.1 (by simp [hc, he])
    · exact ⟨_, rfl, Or.inr ⟨p, rest, ht, hP, hl, hE⟩⟩
  · rename_i hi
    refine ⟨_, rfl, Or.inr ⟨p, rest, ht, hP, ⟨hl.1, hl.2, hl.3, hl.4, hl.5, hl.6, hl.7, hl.8, hl.9, hl.10⟩, ?_⟩⟩
    intro he
    simp at he
    rcases he with he | he
    · exact hE he
    · refine Tok.badFloat htake hP (by simpa [hl.pre] using he) ?_
      simp [NumberResult.isNonInteger, hl.point, hl.expSep, hl.expDigits] at hi
      simpa using hi

theorem expectNumber_spec : ExpectsOr rules expectNumber
    (fun s => (matchCommonNumber s.rem numberOptions).length = 0) := by
  intro env s g
  unfold expectNumber
  obtain ⟨r, h1, ⟨h2, h3⟩ | ⟨p, rest, h2, h3, h4, h5⟩⟩ := matchNumber_facts s.rem
  · rw [wp_bind, wp_rem, wp_bind, wp_lift]
    refine ⟨r, h1, ?_⟩
    hm
  · rw [wp_bind, wp_rem, wp_bind, wp_lift]
    refine ⟨r, h1, ?_⟩
    rw [if_neg (by have := h4.nonempty; omega), wp_bind]
    refine wp_number_tok (R := rules) (N := numerals) (by simp [numerals]) (by simp [numerals])
      (fun _ _ _ => Tok.number) h3 h4 h2 h5 g ?_
    have := h4.nonempty
    intros
    hm
/-- The escapes of a kind of string. -/
def escapesOf (type : StringType) : EscapeForms := if type.hasUnicodeEscape then escapes else byteEscapes

theorem matchEscape_facts (type : StringType) {t : Bytes} (h : t[0]? = some c!"\\") :
    EscapeFacts (escapesOf type) t (matchEscape type t) := by
  unfold escapesOf
  split
  · rename_i hu
    refine escape_facts (by decide) ?_ ?_ (by simp [matchEscape]) h
    · simp [escapes, matchEscape, EscapeForm.run, hu]
    · intro c hc u
      simp [escapes] at hc
      simp only [matchEscape]
      simp [hc]
  · rename_i hu
    refine escape_facts (by decide) ?_ ?_ (by simp [matchEscape]) h
    · simp [byteEscapes, matchEscape, EscapeForm.run]
    · intro c hc u
      simp [byteEscapes] at hc
      simp only [matchEscape]
      simp [hc, hu]
      split <;> simp

theorem escape_tok {type : StringType} {t : Bytes} {e : Escape} (h : EscapeFacts (escapesOf type) t e) :
    Tok t e.length (if e.erroneous then .error else .string_escape) := by
  split
  · rename_i he
    refine Tok.badEscape ?_
    have := h.bad he
    unfold escapesOf at this
    grind
  · rename_i he
    refine Tok.escape ?_
    have := h.good (Bool.eq_false_iff.2 he)
    unfold escapesOf at this
    grind

theorem consumeEscape_spec (type : StringType) (g : Good rules env s) (h : s.rem[0]? = some c!"\\") :
    wp (consumeEscape type) (fun _ s' => Moved rules env s s' ∧ s.idx < s'.idx) env s := by
  unfold consumeEscape
  have hf := matchEscape_facts type h
  have ht := escape_tok hf
  have hle := hf.le
  have hb : ∀ n, (matchEscape type s.rem).length = 0 → Tok s.rem n .error := by
    intro n h0
    have hbad : (matchEscape type s.rem).erroneous = true := by
      cases he : (matchEscape type s.rem).erroneous with
      | true => rfl
      | false =>
        obtain ⟨⟨c, u, hu, _⟩, _⟩ := hf.good he
        simp [h0] at hu
    exact Tok.badEscape (by have := hf.bad hbad; unfold escapesOf at this; grind)
  hm
  exact hb 1 (by assumption)
/-- A run of the same byte. -/
theorem run_facts (t : Bytes) (a : UInt8) : Ascii.length_before_not t a ≤ t.length ∧
    t.take (Ascii.length_before_not t a) = List.replicate (Ascii.length_before_not t a) a ∧
    t[Ascii.length_before_not t a]? ≠ some a ∧
    ∀ k, startsWith t (List.replicate k a) = true ↔ k ≤ Ascii.length_before_not t a := by
  have e : Ascii.length_before_not t a = (t.takeWhile (· == a)).length := by
    have := Ascii.length_if_start t (· == a) 0 (by omega)
    simpa [Ascii.length_if, Ascii.length_before_not] using this
  rw [e]
  clear e
  induction t with
  | nil =>
    refine ⟨by simp, by simp, by simp, ?_⟩
    intro k
    cases k with
    | zero => simp
    | succ k => simp [List.replicate_succ]
  | cons b t ih =>
    obtain ⟨h1, h2, h3, h4⟩ := ih
    by_cases hb : b = a
    · subst hb
      simp only [List.takeWhile_cons, beq_self_eq_true, if_true, List.length_cons, List.take_succ_cons,
        List.replicate_succ, List.getElem?_cons_succ, h2]
      refine ⟨by omega, trivial, h3, ?_⟩
      intro k
      cases k with
      | zero => simp
      | succ k =>
        rw [List.replicate_succ, startsWith_cons_cons]
        simp [h4 k]
    · have hb' : (b == a) = false := by simpa using hb
      simp only [List.takeWhile_cons, hb', Bool.false_eq_true, if_false, List.length_nil]
      refine ⟨by simp, by simp, by simpa using hb, ?_⟩
      intro k
      cases k with
      | zero => simp
      | succ k =>
        rw [List.replicate_succ, startsWith_cons_cons]
        simp [Ne.symm hb]

theorem consumeSuffix_spec (g : Good rules env s) :
    wp consumeSuffix (fun _ s' => Moved rules env s s') env s := by
  unfold consumeSuffix
  have h := Cpp.matchIdentifier_facts s.rem
  hm_hyp h
  hm

theorem closing_iff (t : Bytes) (n k : Nat) : OccursAt (c!"\"" :: List.replicate k c!"#") t n ↔
    t[n]? = some c!"\"" ∧ k ≤ Ascii.length_before_not (t.drop (n + 1)) c!"#" := by
  by_cases hn : n ≤ t.length
  · rw [occursAt_iff, and_iff_right hn]
    cases hc : t[n]? with
    | none =>
      rw [List.drop_of_length_le (by simpa using hc)]
      simp
    | some c =>
      obtain ⟨h, rfl⟩ := List.getElem?_eq_some_iff.1 hc
      rw [List.drop_eq_getElem_cons h, startsWith_cons_cons, Bool.and_eq_true, (run_facts _ _).2.2.2 k]
      simp only [beq_iff_eq, Option.some.injEq]
      exact ⟨fun h => ⟨h.1.symm, h.2⟩, fun h => ⟨h.1.symm, h.2⟩⟩
  · constructor
    · rintro ⟨a, b, rfl, rfl⟩
      simp at hn
    · rintro ⟨h, _⟩
      rw [List.getElem?_eq_none (by omega)] at h
      cases h

theorem quote_tok {t : Bytes} (h : t.take 1 = b!"\"") : Tok t 1 .string_delim :=
  Tok.closing (k := 0) h (Or.inl rfl)

theorem rawLoop_spec {k fuel : Nat} (g : Good rules env s) (hf : s.rem.length < fuel) :
    wp (HM.loop fuel (rawStep k) 0) (fun _ s' => Moved rules env s s') env s := by
  refine wp_scan (R := rules) (fun n s' => ∀ i, i < n → ¬ OccursAt (c!"\"" :: List.replicate k c!"#") s'.rem i) ?_ g
    (Nat.zero_le _) (by simp) (by omega)
  intro n s1 g1 h1 h2 h3 h4
  have h5 : ∀ i, OccursAt (c!"\"" :: List.replicate k c!"#") s1.rem i → n ≤ i := by
    intro i hi
    have := h4 i
    by_cases i < n
    · exact absurd hi (this ‹_›)
    · omega
  have h6 := closing_iff s1.rem n k
  unfold rawStep
  obtain ⟨r1, r2, r3, r4⟩ := run_facts (s1.rem.drop (n + 1)) c!"#"
  hm
  · exact fun _ => Tok.rawString (k := k) ⟨h5, Or.inl (by omega)⟩
  · rename_i hc _ _ hq hk _ _ _ hr _ _
    subst hq
    refine Tok.closing ?_ (Or.inr ?_)
    · rw [hr, List.drop_eq_getElem_cons (i := n) (by assumption), Nat.add_comm 1, List.take_succ_cons, r2]
      simp [(List.getElem?_eq_some_iff.1 hc).2]
    · rw [hr, List.getElem?_drop]
      rw [List.getElem?_drop] at r3
      rwa [← Nat.add_assoc]
  · rename_i hc _ _ hq hk
    exact fun _ => Tok.rawString (k := k) ⟨h5, Or.inr (h6.2 ⟨by rw [hc, hq], hk⟩)⟩

theorem stringLoop_spec (type : StringType) {fuel : Nat} (g : Good rules env s) (hf : s.rem.length < fuel) :
    wp (HM.loop fuel (stringStep type) 0) (fun _ s' => Moved rules env s s') env s := by
  refine wp_scan (R := rules) (fun n s' => Scanned b!"\"" (· = c!"\\") s'.rem n) ?_ g (Nat.zero_le _) (.zero _ _ _) (by omega)
  intro n s1 g1 h1 h2 h3 h4
  unfold stringStep
  hm
  · exact fun _ => Tok.string (h4.atEnd (by assumption) (by assumption))
  · exact quote_tok (by grind)
  · rename_i hc _ _ hq
    exact fun _ => Tok.string (h4.atQuote (by rw [startsWith_drop_one hc]; simp [hq]) (by assumption))
  · exact .zero _ _ _
  · rename_i hc _ _ _ hq
    exact fun _ => Tok.string (h4.atStop hc hq)
  · rename_i hc _ _ hq hs
    exact h4.succ hc (by rw [startsWith_drop_one hc]; simp [hq]) hs
theorem contentLoop_spec (type : StringType) (k : Nat) {fuel : Nat} (g : Good rules env s) (hf : s.rem.length < fuel) :
    wp (HM.loop fuel (if type.isRaw then rawStep k else stringStep type) 0)
      (fun _ s' => Moved rules env s s') env s := by
  split
  · exact rawLoop_spec g hf
  · exact stringLoop_spec type g hf

theorem consumeStringContentAndSuffix_spec (type : StringType) (k : Nat) (g : Good rules env s) :
    wp (consumeStringContentAndSuffix type k) (fun _ s' => Moved rules env s s') env s := by
  unfold consumeStringContentAndSuffix
  hm
  refine wp_mono (contentLoop_spec type k g (by omega)) ?_
  intro _ s' m
  hm_hyp m
  hm

theorem classify_facts (t : Bytes) : classifyStringPrefix t = none ∧ startsWith t b!"\"" = false ∨
    ∃ k type, classifyStringPrefix t = some (k, type) ∧ k ≤ t.length ∧
      (startsWith t b!"\"" = true → k = 0 ∧ type.isRaw = false) ∧
      (k = 0 ∨ t.take k ∈ [b!"b", b!"br", b!"c", b!"cr", b!"r"]) := by
  unfold classifyStringPrefix
  cases h : stringPrefixes.find? (fun p => startsWith t p.1) with
  | none =>
    left
    have := List.find?_eq_none.1 h (b!"\"", 0, .string) (by simp [stringPrefixes])
    simpa using this
  | some p =>
    right
    have h1 := List.find?_some h
    have h2 := List.mem_of_find?_eq_some h
    obtain ⟨w, k, type⟩ := p
    obtain ⟨u, rfl⟩ := startsWith_iff.1 h1
    refine ⟨k, type, rfl, ?_⟩
    have key : ∀ p ∈ stringPrefixes, p.2.1 ≤ p.1.length ∧ p.1 ≠ [] ∧
      (p.1.head? = some c!"\"" → p.2.1 = 0 ∧ p.2.2.isRaw = false) ∧
      (p.2.1 = 0 ∨ p.1.take p.2.1 ∈ [b!"b", b!"br", b!"c", b!"cr", b!"r"]) := by decide
    obtain ⟨k1, k2, k3, k4⟩ := key _ h2
    dsimp only at k1 k2 k3 k4
    refine ⟨by simp; omega, ?_, ?_⟩
    · intro h
      apply k3
      cases w with
      | nil => simp at k2
      | cons a w =>
        rw [List.cons_append, startsWith_cons_one] at h
        simpa using h
    · rwa [List.take_append_of_le_length k1]

theorem expectStringLiteral_spec : ExpectsOr rules expectStringLiteral (fun s => startsWith s.rem b!"\"" = false) := by
  intro env s g
  unfold expectStringLiteral
  rcases classify_facts s.rem with ⟨h1, h2⟩ | ⟨k, type, h1, h2, h3, h4⟩
  · rw [wp_bind, wp_rem, h1]
    hm
  · rw [wp_bind, wp_rem, h1]
    dsimp only
    generalize hh : (if type.isRaw then Ascii.length_before_not (s.rem.drop k) c!"#" else 0) = m
    have hm' : (s.rem.drop k).take m = List.replicate m c!"#" ∧ k + m ≤ s.rem.length := by
      obtain ⟨r1, r2, r3, r4⟩ := run_facts (s.rem.drop k) c!"#"
      grind
    have hq : startsWith s.rem b!"\"" = true → m = 0 ∧ k = 0 := by grind
    clear hh
    by_cases hs : startsWith (s.rem.drop (k + m)) b!"'" = true ∨ startsWith (s.rem.drop (k + m)) b!"\"" = true
    · have hr : (s.rem.drop k).take (1 + m) ∈ [List.replicate m c!"#" ++ b!"'", List.replicate m c!"#" ++ b!"\""] ∧
          k + m < s.rem.length := by
        rw [startsWith_drop_iff, startsWith_drop_iff] at hs
        have : k + m < s.rem.length := by
          rcases hs with h | h
          · exact (List.getElem?_eq_some_iff.1 h).1
          · exact (List.getElem?_eq_some_iff.1 h).1
        refine ⟨?_, this⟩
        rw [Nat.add_comm 1, List.take_add_one, hm'.1, List.getElem?_drop]
        rcases hs with h | h <;> simp [h]
      have hd : Tok (s.rem.drop k) (1 + m) .string_delim := by
        obtain ⟨hr, _⟩ := hr
        simp only [List.mem_cons, List.not_mem_nil, or_false] at hr
        rcases hr with h | h
        · exact Tok.opening (by simp) h
        · exact Tok.opening (by simp) h
      rw [if_neg (by grind)]
      hm
      · rename_i h _ _
        rw [h]
        exact hd
    · have h : startsWith s.rem b!"\"" = false := by
        cases h : startsWith s.rem b!"\"" with
        | false => rfl
        | true =>
          obtain ⟨rfl, rfl⟩ := hq h
          simp [h] at hs
      rw [if_pos (by grind)]
      hm
theorem charContent_facts (t : Bytes) : charContent t = none ∨ ∃ n ty, charContent t = some (n, ty) ∧ 0 < n ∧
    n < t.length ∧ ty ≠ .none ∧ Tok t n ty ∧ t[n]? = some c!"'" := by
  cases t with
  | nil => exact Or.inl rfl
  | cons c t =>
    unfold charContent
    dsimp only
    split
    · exact Or.inl rfl
    rename_i hc
    split
    · rename_i hb
      subst hb
      have hf := matchEscape_facts .string (t := c!"\\" :: t) rfl
      have htok := escape_tok hf
      split
      · exact Or.inl rfl
      split
      · exact Or.inl rfl
      split
      · exact Or.inl rfl
      rename_i h0 _ hq
      rw [Bool.not_eq_true', Bool.not_eq_false, startsWith_drop_iff] at hq
      refine Or.inr ⟨_, _, rfl, by omega, (List.getElem?_eq_some_iff.1 hq).1, by split <;> decide, htok, hq⟩
    · rename_i hb
      split
      · exact Or.inl rfl
      rename_i hq
      rw [Bool.not_eq_true', Bool.not_eq_false, startsWith_drop_iff] at hq
      obtain ⟨d, p, rest, h1, h2, h3, h4⟩ := firstChar_of_decode (s := c :: t) (by simp)
      refine Or.inr ⟨_, _, rfl, ?_, (List.getElem?_eq_some_iff.1 hq).1, by decide, ?_, hq⟩
      · have := decode_facts (c :: t) (by simp)
        omega
      · refine Tok.character h1 h2 h3 ?_ hq
        simp at hc
        simp [hc, hb]

theorem expectCharOrByte_spec : ExpectsOr rules expectCharOrByte (fun _ => True) := by
  intro env s g
  unfold expectCharOrByte
  rw [wp_bind, wp_rem]
  dsimp only
  generalize hk : (if startsWith s.rem b!"b" then 1 else 0) = k
  have hk' : k = 0 ∨ (k = 1 ∧ s.rem.take 1 = b!"b") := by
    split at hk
    · rename_i h
      obtain ⟨u, hu⟩ := startsWith_iff.1 h
      right
      simp [hu, ← hk]
    · left
      exact hk.symm
  have hdec : 0 < k → Tok s.rem k .string_decor := by
    intro h
    obtain h' | ⟨rfl, h'⟩ := hk'
    · omega
    · exact Tok.prefix (by simp [h'])
  clear hk
  split
  · hm
  · rename_i h
    simp only [not_or, Decidable.not_not] at h
    obtain ⟨h1, h2⟩ := h
    have hap : Tok (s.rem.drop k) 1 .string_delim := by
      obtain ⟨hlt, he⟩ := List.getElem?_eq_some_iff.1 h2
      refine Tok.apostrophe ?_
      rw [List.drop_eq_getElem_cons hlt, he]
      rfl
    rcases charContent_facts (s.rem.drop (k + 1)) with hc | ⟨n, ty, hc, h3, h4, h5, h6, h7⟩
    · rw [hc]
      hm
    · rw [hc]
      dsimp only
      have hap' : Tok (s.rem.drop (k + 1 + n)) 1 .string_delim := by
        rw [List.getElem?_drop] at h7
        obtain ⟨hlt, he⟩ := List.getElem?_eq_some_iff.1 h7
        refine Tok.apostrophe ?_
        rw [List.drop_eq_getElem_cons hlt, he]
        rfl
      have hk2 : k ≤ 1 := by omega
      hm
      · hm_at hap'
      · hm_at h6
      · hm_at hap

theorem isIllegalRaw_iff (w : Bytes) : isIllegalRaw w = true ↔ w ∈ notRaw := by
  simp [isIllegalRaw, notRaw, or_assoc]

theorem quoted_of {n : Nat} {t : Bytes} {q : Bytes} (hq : q ∈ [b!"'", b!"'#r"]) (h : startsWith t q = true)
    (h' : Id (t.drop q.length) n) (e : t[q.length + n]? = some c!"'") : QuotedLifetime t :=
  ⟨q, hq, occursAt_zero.2 h, n, h', e⟩

theorem lifetime_wp {k n : Nat} {ty ty' : HT} (g : Good rules env s) (hk : 0 < k) (hn : 0 < n)
    (hl : k + n ≤ s.rem.length) (h1 : ty ≠ .none) (h2 : ty' ≠ .none) (t1 : Tok s.rem k ty)
    (t2 : Tok (s.rem.drop k) n ty') (hd : env.debug = true → s.rem[k + n]? ≠ some c!"'") :
    wp (do HM.emitAdv k ty; HM.emitAdv n ty'; let r ← HM.rem; HM.dassert (!startsWith r b!"'"))
      (fun _ s' => Good rules env s' ∧ s.idx < s'.idx) env s := by
  rw [wp_bind]
  refine wp_step_emitAdv g hk (by omega) h1 t1 fun s1 g1 _ e1 i1 _ => ?_
  rw [wp_bind]
  refine wp_step_emitAdv g1 hn (by rw [e1, List.length_drop]; omega) h2 (by rw [e1]; exact t2) fun s2 g2 _ e2 i2 _ => ?_
  rw [wp_bind, wp_rem]
  refine wp_dassert_debug (fun h => ?_) ⟨g2, by omega⟩
  rw [e2, e1, List.drop_drop, Bool.not_eq_true', ← Bool.not_eq_true, startsWith_drop_iff]
  exact hd h

theorem emitLifetime_spec {q : Bytes} {n : Nat} (hq : q ∈ [b!"'", b!"'#r"]) (g : Good rules env s)
    (hc : env.debug = true → ¬ QuotedLifetime s.rem) (h : startsWith s.rem q = true)
    (h' : Id (s.rem.drop q.length) n) (hn : 0 < n) (hn' : n ≤ (s.rem.drop q.length).length) :
    wp (emitLifetime q.length n) (fun _ s' => Good rules env s' ∧ s.idx < s'.idx) env s := by
  unfold emitLifetime
  obtain ⟨u, hu⟩ := startsWith_iff.1 h
  have hlen := congrArg List.length hu
  have hq1 : 0 < q.length := by
    simp at hq
    rcases hq with rfl | rfl <;> simp
  have htake : s.rem.take q.length ∈ [b!"'", b!"'#r"] := by rw [hu, List.take_left]; exact hq
  have hd : env.debug = true → s.rem[q.length + n]? ≠ some c!"'" :=
    fun hdb e => hc hdb (quoted_of hq h h' e)
  simp at hlen hn'
  rw [wp_bind, wp_rem]
  dsimp only
  by_cases hl : startsWith (s.rem.drop (q.length + n)) b!":" = true
  · have e := startsWith_drop_iff.1 hl
    have e' : (s.rem.drop q.length)[n]? = some c!":" := by rwa [List.getElem?_drop]
    have t1 := Tok.labelDelim htake h' e
    have t2 := Tok.label h' e'
    simp only [hl, if_true]
    exact lifetime_wp g hq1 hn (by omega) (by decide) (by decide) t1 t2 hd
  · have e : s.rem[q.length + n]? ≠ some c!":" := fun h => hl (startsWith_drop_iff.2 h)
    have e' : (s.rem.drop q.length)[n]? ≠ some c!":" := by rwa [List.getElem?_drop]
    have t1 := Tok.lifetimeDelim htake h' e
    have t2 := Tok.lifetime h' e'
    simp only [hl]
    exact lifetime_wp g hq1 hn (by omega) (by decide) (by decide) t1 t2 hd

theorem expectLifetime_spec (g : Good rules env s)
    (hc : env.debug = true → ∀ k, ¬ QuotedLifetime (env.src.drop k)) :
    ExpectsAt rules env s expectLifetime
      (startsWith s.rem b!"'" = true → ∀ m, ¬ Id (s.rem.drop 1) m) := by
  have hc' : env.debug = true → ¬ QuotedLifetime s.rem := fun h => by rw [g.rem]; exact hc h _
  unfold ExpectsAt expectLifetime
  rw [wp_bind, wp_rem]
  cases h1 : startsWith s.rem b!"'" with
  | false => hm
  | true =>
    cases h3 : startsWith s.rem b!"'#r" with
    | true =>
      have hno : ∀ m, ¬ Id (s.rem.drop 1) m := by
        obtain ⟨u, hu⟩ := startsWith_iff.1 h3
        refine not_identifier fun _ => ?_
        rw [hu]
        exact (noFirst_ascii (by decide)).2 (by unfold CppId.Start; decide +kernel)
      rcases Cpp.matchIdentifier_facts (s.rem.drop 3) with ⟨h4, ⟨h5, _⟩ | ⟨h5, h6⟩⟩
      · simp only [h5]
        hm
      · obtain ⟨u, hu⟩ := startsWith_iff.1 h3
        generalize hn : Cpp.matchIdentifier (s.rem.drop 3) = n at *
        have hl := congrArg List.length hu
        simp at hl h4
        simp only [Bool.not_true, Bool.false_eq_true, if_false, if_true]
        rw [if_neg (by omega)]
        by_cases hr : isIllegalRaw ((s.rem.drop 3).take n) = true
        · have hw := (isIllegalRaw_iff _).1 hr
          have ht : Tok s.rem (3 + n) .error := Tok.badLifetime hw (by rw [hu, Nat.add_comm]; simp)
          rw [if_pos hr, wp_bind]
          refine wp_step_emitAdv g (by omega) (by omega) (by decide) ht fun s1 g1 _ e1 i1 _ => ?_
          rw [wp_bind, wp_rem, wp_bind]
          refine wp_dassert_debug (fun h => ?_) ?_
          · rw [e1, Bool.not_eq_true', ← Bool.not_eq_true, startsWith_drop_iff]
            exact fun e => hc' h (quoted_of (q := b!"'#r") (by simp) h3 h6 e)
          · hm
        · rw [if_neg hr, wp_bind]
          refine wp_mono (emitLifetime_spec (q := b!"'#r") (by simp) g hc' h3 h6 h5 (by simpa using h4)) ?_
          rintro _ s' ⟨g', hi⟩
          hm
    | false =>
      rcases Cpp.matchIdentifier_facts (s.rem.drop 1) with ⟨h4, ⟨h5, h6⟩ | ⟨h5, h6⟩⟩
      · have hno := not_identifier (C := CppId.Continue) h6
        simp only [h5]
        hm
      · simp only [Bool.not_true, Bool.false_eq_true, if_false]
        rw [if_neg (by omega), wp_bind]
        refine wp_mono (emitLifetime_spec (q := b!"'") (by simp) g hc' h1 h6 h5 h4) ?_
        rintro _ s' ⟨g', hi⟩
        hm

theorem expectRawIdentifier_spec (_ : Good rules env s) (id : s.rem ≠ [] → NoFirst CppId.Start s.rem) :
    ExpectsAt rules env s expectRawIdentifier True := by
  unfold ExpectsAt expectRawIdentifier
  rw [wp_bind, wp_rem]
  cases h : startsWith s.rem b!"r#" with
  | false => hm
  | true =>
    obtain ⟨u, hu⟩ := startsWith_iff.1 h
    exfalso
    rw [hu] at id
    exact (noFirst_ascii (by decide)).1 (id (by simp)) (by unfold CppId.Start; decide +kernel)
theorem expectSymbol_spec : ExpectsOr rules expectSymbol
    (fun s => ∀ w ∈ symbols, startsWith s.rem w = false) := by
  intro env s g
  unfold expectSymbol
  rcases matchSymbol_facts s.rem with ⟨w, ty, h1, h2, h3, h4, h5, h6⟩ | ⟨h1, h2⟩
  · rw [wp_bind, wp_rem, h1]
    simp only [h2]
    hm
  · rw [wp_bind, wp_rem, h1]
    hm

theorem number_digit {t : Bytes} (h : (matchCommonNumber t numberOptions).length = 0) :
    ∀ b, t[0]? = some b → ¬ DecDigit b := by
  intro b hb hd
  cases t with
  | nil => simp at hb
  | cons c t =>
    simp at hb
    subst hb
    exact number_ne_zero numberOptions ⟨by decide, by decide, by decide⟩ _ c t rfl
      ((isDigit_iff c).2 hd) h

theorem unknown_tok {t : Bytes} (h : t ≠ []) (sp : NoFirst Space t)
    (q1 : startsWith t b!"\"" = false) (num : (matchCommonNumber t numberOptions).length = 0)
    (life : startsWith t b!"'" = true → ∀ m, ¬ Id (t.drop 1) m) (id : t ≠ [] → NoFirst CppId.Start t)
    (sym : ∀ w ∈ symbols, startsWith t w = false) : Tok t (decodeOrReplacement t).2 .error := by
  obtain ⟨c, p, rest, h1, h2, h3, h4⟩ := firstChar_of_decode h
  refine Tok.unknown h1 h2 h3 (id h c p rest h1 h2) (sp c p rest h1 h2) ?_ ?_ ?_
  · intro w hw
    rw [occursAt_zero, sym w hw]
    simp
  · exact fun b hb => ⟨number_digit num b hb, ne_of_startsWith hb q1⟩
  · exact fun e => life (startsWith_drop_iff (n := 0).2 e)

theorem step_spec (g : Good rules env s) (hc : env.debug = true → ∀ k, ¬ QuotedLifetime (env.src.drop k))
    (h : s.rem ≠ []) : wp step (fun _ s' => Good rules env s' ∧ s.idx < s'.idx) env s := by
  unfold step expectToken
  hm_hyp h
  hm_bare
  · have := g.len
    have := List.length_pos_iff.2 h
    simp_all
    omega
  · exact unknown_tok (by assumption) (by assumption) (by assumption) (by assumption) (by assumption)
      (by assumption) (by assumption)

theorem highlight_tiles (debug : Bool) (opts : Opts) (src : Bytes)
    (hc : debug = true → ∀ k, ¬ QuotedLifetime (src.drop k)) :
    ∃ es, highlight debug opts src = .ok (true, es) ∧
      Tiles rules src src.length (es.map Emit.token) := by
  obtain ⟨good, es, h1, rfl, h2⟩ := run_of_wp (m := run) (ext := ()) (R := rules) (debug := debug)
    (opts := opts) (src := src) (P := fun b => b = true) (by
      intro s g hr hi _
      unfold run
      hm
      refine wp_while_moved (R := rules) (fun _ => True) ?_ g trivial (by omega) ?_
      · intro s1 g1 _ _ _ _
        hm
      · intros
        hm)
  exact ⟨es, h1, h2⟩

/-- Words are looked up as the specification says. -/
theorem C33_rust (w : Bytes) (ty : HT) : highlightByCode w = some ty ↔ (w, ty) ∈ words :=
  (table_lookup tokens_sorted w ty).trans (words_iff _)

example : highlightByCode b!"fn" = some .keyword ∧ highlightByCode b!"crate" = some .keyword ∧
    highlightByCode b!"f" = none := by decide +kernel

/-- Every token of a Rust file is what its type says, and text without a token is whitespace.  In a
debug build, this is only so for files in which no lifetime is followed by an apostrophe. -/
theorem C45_rust_tokens (debug : Bool) (opts : Opts) (src : Bytes)
    (hc : debug = true → ∀ k, ¬ QuotedLifetime (src.drop k)) :
    ∃ es, highlight debug opts src = .ok (true, es) ∧
      Tiles rules src src.length (es.map Emit.token) :=
  highlight_tiles debug opts src hc

/-- In a release build, this is so for every file. -/
theorem C45_rust_tokens_release (opts : Opts) (src : Bytes) :
    ∃ es, highlight false opts src = .ok (true, es) ∧
      Tiles rules src src.length (es.map Emit.token) :=
  highlight_tiles false opts src nofun

/-- What is highlighted in a debug build. -/
def tokensOf (src : Bytes) : Option (List Token) :=
  (highlight true {} src).toOption.map (fun r => r.2.map Emit.token)

/-- Files without apostrophes have no quoted lifetimes, for example. -/
theorem not_quoted {t : Bytes} (h : c!"'" ∉ t) (k : Nat) : ¬ QuotedLifetime (t.drop k) := by
  rintro ⟨q, _, _, m, _, e⟩
  exact h (List.mem_of_mem_drop (i := k) (List.mem_of_getElem? e))

example : (∀ k, ¬ QuotedLifetime (List.drop k b!"0b1e5 1foo x!(1.foo)")) ∧
    tokensOf b!"0b1e5 1foo x!(1.foo)" =
    some [⟨0, 5, .error⟩, ⟨6, 1, .number⟩, ⟨7, 3, .number_decor⟩, ⟨11, 1, .name_macro⟩,
      ⟨12, 1, .name_macro_delim⟩, ⟨13, 1, .symbol_parens⟩, ⟨14, 1, .number⟩, ⟨15, 1, .number_delim⟩,
      ⟨16, 3, .number_decor⟩, ⟨19, 1, .symbol_parens⟩] :=
  ⟨not_quoted (by decide), by decide +kernel⟩

example : tokensOf b!"'\\n' 'a: 'b b'x'z r##\"a\"#\"##" =
    some [⟨0, 1, .string_delim⟩, ⟨1, 2, .string_escape⟩, ⟨3, 1, .string_delim⟩, ⟨5, 1, .name_label_delim⟩,
      ⟨6, 1, .name_label⟩, ⟨7, 1, .symbol_punc⟩, ⟨9, 1, .name_lifetime_delim⟩, ⟨10, 1, .name_lifetime⟩,
      ⟨12, 1, .string_decor⟩, ⟨13, 1, .string_delim⟩, ⟨14, 1, .string⟩, ⟨15, 1, .string_delim⟩,
      ⟨16, 1, .error⟩, ⟨18, 1, .string_decor⟩, ⟨19, 3, .string_delim⟩, ⟨22, 3, .string⟩,
      ⟨25, 3, .string_delim⟩] := by decide +kernel

/-- A character literal with more than one character fails an assertion in debug builds. -/
theorem C45_assertion_fails : QuotedLifetime b!"'ab'" ∧ highlight true {} b!"'ab'" = .error .assert ∧
    (highlight false {} b!"'ab'").toOption.isSome := by
  refine ⟨⟨b!"'", by simp, occursAt_zero.2 (by decide), 2, ?_, rfl⟩, by decide +kernel, by decide +kernel⟩
  exact (by decide +kernel : Cpp.matchIdentifier b!"ab'" = 2) ▸
    ((Cpp.matchIdentifier_facts b!"ab'").2.resolve_left
      (fun h => absurd h.1 (by decide +kernel))).2

/-- Valid programs are highlighted as if they were something else: raw identifiers, tuple fields,
ranges, attributes and nested comments are not recognised, and `cr` strings have escape sequences. -/
theorem C45_differences :
    tokensOf b!"r#foo!" = some [⟨0, 1, .name⟩, ⟨1, 1, .error⟩, ⟨2, 3, .name_macro⟩, ⟨5, 1, .name_macro_delim⟩] ∧
    tokensOf b!"t.0" = some [⟨0, 1, .name⟩, ⟨1, 2, .error⟩] ∧
    tokensOf b!"1..2" = some [⟨0, 1, .number⟩, ⟨1, 1, .number_delim⟩, ⟨2, 2, .error⟩] ∧
    tokensOf b!"#[a]" = some [⟨0, 1, .error⟩, ⟨1, 1, .symbol_square⟩, ⟨2, 1, .name⟩, ⟨3, 1, .symbol_square⟩] ∧
    tokensOf b!"cr\"\\z\"" = some [⟨0, 2, .string_decor⟩, ⟨2, 1, .string_delim⟩, ⟨3, 1, .error⟩,
      ⟨4, 1, .string⟩, ⟨5, 1, .string_delim⟩] ∧
    tokensOf b!"r#'a" = some [⟨0, 1, .string_decor⟩, ⟨1, 2, .string_delim⟩, ⟨3, 1, .string⟩] ∧
    tokensOf b!"/*/**/*/" = some [⟨0, 2, .comment_delim⟩, ⟨2, 2, .comment⟩, ⟨4, 2, .comment_delim⟩,
      ⟨6, 1, .symbol_op⟩, ⟨7, 1, .symbol_op⟩] := by
  refine ⟨by decide +kernel, by decide +kernel, by decide +kernel, by decide +kernel, by decide +kernel,
    by decide +kernel, by decide +kernel⟩

/-- A character outside of ASCII in an escape sequence is cut after its first byte. -/
theorem C31_rust_splits : IsUtf8 [0x22, 0x5C, 0x78, 0x31, 0xC3, 0xA9, 0x22] ∧
    tokensOf [0x22, 0x5C, 0x78, 0x31, 0xC3, 0xA9, 0x22] =
      some [⟨0, 1, .string_delim⟩, ⟨1, 4, .error⟩, ⟨5, 1, .string⟩, ⟨6, 1, .string_delim⟩] ∧
    ¬ IsUtf8 (([0x22, 0x5C, 0x78, 0x31, 0xC3, 0xA9, 0x22].drop 5).take 1) := by
  exact ⟨⟨[0x22, 0x5C, 0x78, 0x31, 0xE9, 0x22], by simp [IsScalar], by decide +kernel⟩, by decide +kernel,
    not_isUtf8_one (by decide)⟩

end Ulight.Rust
