import Verif.Hl.Chars
import Verif.Hl.Words
import Verif.Lang.Python
import Verif.Spec.Lang.Python

/-!
# Python: every token says something true about its text
-/

namespace Ulight.Python

open Spec Spec.Python Utf8

variable {env : HEnv} {s : HS Unit}

theorem tokens_sorted : SortedTable tokens := by decide +kernel

theorem tokens_some : ∀ e ∈ tokens, e.2 ≠ .none := by decide +kernel

theorem prefixes_sorted : SortedTable prefixes := by decide +kernel

/-- The table has the words of the specification. -/
theorem words_iff (x : Bytes × HT) : x ∈ tokens ↔ x ∈ words := sameWords_iff (by decide +kernel) x

/-- The symbols in the order of the table. -/
def sortedSymbols : List Bytes := (tokens.map Prod.fst).filter fun w =>
  (w.take 1).all (!isAlpha ·)

theorem sortedSymbols_iff (w : Bytes) : w ∈ sortedSymbols ↔ w ∈ symbols := by
  simp [sortedSymbols, symbols, words_iff]

theorem symbols_sorted : sortedSymbols.Pairwise (fun a b => bytesLt a b = true) := by decide +kernel

theorem symbols_tokens : ∀ w ∈ sortedSymbols, ∃ ty, (w, ty) ∈ tokens := by
  intro w hw
  simp only [sortedSymbols, List.mem_filter, List.mem_map] at hw
  obtain ⟨⟨e, he, rfl⟩, _⟩ := hw
  exact ⟨e.2, he⟩

theorem space_iff (c : UInt8) : isWhitespace c = true ↔ Space c := by
  simp [isWhitespace, Space, or_assoc]

theorem matchSymbol_eq (t : Bytes) : matchSymbol t = sortedSymbols.reverse.find? (startsWith t ·) := by
  have e : sortedSymbols = [b!"!=", b!"%", b!"%=", b!"&", b!"&=", b!"(", b!")", b!"*", b!"**", b!"**=", b!"*=", b!"+",
      b!"+=", b!",", b!"-", b!"-=", b!"->", b!".", b!"...", b!"/", b!"//", b!"//=", b!"/=", b!":", b!":=", b!";",
      b!"<", b!"<<", b!"<<=", b!"<=", b!"=", b!"==", b!">", b!">=", b!">>", b!">>=", b!">>>", b!"@", b!"@=",
      b!"[", b!"\\", b!"]", b!"^", b!"^=", b!"{", b!"|", b!"|=", b!"}", b!"~"] := by decide +kernel
  match t with
  | [] => rw [e]; rfl
  | c :: t =>
    rw [find_tails c t sortedSymbols (by decide +kernel), e]
    clear e
    by_cases hc : c ∈ b!"!%&()*+,-./:;<=>@[\\]^{|}~"
    · symbol_cases matchSymbol t hc
    · simp only [List.mem_cons, List.not_mem_nil, or_false, not_or] at hc
      have hc' := hc
      simp only [eq_comm (a := c)] at hc'
      simp [matchSymbol, hc, tailsOf, hc']

theorem matchSymbol_facts (t : Bytes) :
    (∃ w ty, matchSymbol t = some w ∧ highlightByCode w = some ty ∧ ty ≠ .none ∧ 0 < w.length ∧
      w.length ≤ t.length ∧ Tok t w.length ty) ∨
    (matchSymbol t = none ∧ ∀ w ∈ symbols, startsWith t w = false) := by
  rw [matchSymbol_eq]
  rcases symbol_facts symbols_sorted symbols_tokens t with ⟨w, ty, h, h1, h2, h3, h4, h5, h6⟩ | h
  · refine Or.inl ⟨w, ty, h, (table_lookup tokens_sorted w ty).2 h1, tokens_some _ h1, ?_, h4,
      Tok.symbol (longestIn_congr sortedSymbols_iff h6) ((words_iff _).1 (by rwa [h5]))⟩
    have : ∀ w ∈ sortedSymbols, 0 < w.length := by decide +kernel
    exact this w h2
  · exact Or.inr ⟨h.1, fun w hw => h.2 w ((sortedSymbols_iff w).2 hw)⟩

theorem newline_iff (c : UInt8) : isNewline c = false ↔ InLine c := by simp [isNewline, InLine]

theorem consumeWhitespace_spec (g : Good rules env s) :
    wp consumeWhitespace (fun _ s' => Moved rules env s s' ∧
      s'.rem = s.rem.drop (Ascii.length_if s.rem isWhitespace) ∧
      ∀ c, s'.rem[0]? = some c → ¬ Space c) env s := by
  unfold consumeWhitespace
  have h := length_if_zero_longest s.rem isWhitespace Space space_iff
  have h1 := h.1
  have h2 := h.2
  hm

theorem expectComment_spec : ExpectsOr rules expectComment (fun s => startsWith s.rem b!"#" = false) := by
  intro env s g
  unfold expectComment
  hm
  exact fun _ => Tok.comment (length_if_not_zero_longest _ _ _ newline_iff)

theorem identifier_tok {t : Bytes} {n : Nat} (h : Identifier CppId.Start CppId.Continue t n) :
    Tok t n ((highlightByCode (t.take n)).getD .name) ∧
      (highlightByCode (t.take n)).getD .name ≠ .none := by
  cases hh : highlightByCode (t.take n) with
  | none =>
    refine ⟨Tok.name h ?_, by decide⟩
    intro ty hty
    have := (table_lookup tokens_sorted (t.take n) ty).2 ((words_iff _).2 hty)
    simp [highlightByCode] at hh
    simp [hh] at this
  | some ty =>
    have := (table_lookup tokens_sorted (t.take n) ty).1 hh
    exact ⟨Tok.keyword h ((words_iff _).1 this), tokens_some _ this⟩

theorem expectIdentifier_spec : ExpectsOr rules expectIdentifier
    (fun s => s.rem ≠ [] → NoFirst CppId.Start s.rem) := by
  intro env s g
  unfold expectIdentifier
  have hl := Cpp.matchIdentifier_facts s.rem
  hm_hyp hl
  hm
  · exact (identifier_tok (by grind)).2
  · exact (identifier_tok (by grind)).1

theorem expectNumber_spec : ExpectsOr rules expectNumber
    (fun s => (matchCommonNumber s.rem numberOptions).length = 0) := by
  intro env s g
  unfold expectNumber
  hm
  · refine wp_number (R := rules) (N := numerals) (by simp [numerals]) ?_ (fun _ _ _ => Tok.number)
      (by assumption) (by assumption) ?_
    · constructor <;> simp [numberOptions, numerals]
    intros
    hm

theorem expectSymbol_spec : ExpectsOr rules expectSymbol
    (fun s => ∀ w ∈ symbols, startsWith s.rem w = false) := by
  intro env s g
  unfold expectSymbol
  rcases matchSymbol_facts s.rem with ⟨w, ty, h1, h2, h3, h4, h5, h6⟩ | ⟨h1, h2⟩
  · rw [wp_bind, wp_rem, h1]
    simp only [h2]
    hm
  · rw [wp_bind, wp_rem, h1]
    hm


/-- The form of escapes, by their second character. -/
theorem esc_inv {t u v : Bytes} {c : UInt8} (h : c!"\\" :: c :: u = t ++ v) (he : Esc t) :
    (∃ w, c :: u = w ++ v ∧ (IsEscape .lf_cr_crlf w ∧ (c = 0x0A ∨ c = 0x0D) ∨ IsEscape .octal_3 w ∧ Octal c)) ∨
    (∃ w, u = w ++ v ∧ (c = c!"x" ∧ IsEscape .hex_2 w ∨ c = c!"u" ∧ IsEscape .hex_4 w ∨
      c = c!"U" ∧ IsEscape .hex_8 w ∨ c = c!"N" ∧ ∃ ds, w = b!"{" ++ ds ++ b!"}" ∧ c!"}" ∉ ds)) ∨
    c ∈ b!"\\'\"abfnrtv" := by
  cases he with
  | newline he =>
    rename_i w
    simp at h
    refine Or.inl ⟨w, h, Or.inl ⟨he, ?_⟩⟩
    rcases he with rfl | rfl | rfl <;> simp at h <;> simp [h.1]
  | octal he =>
    rename_i w
    simp at h
    refine Or.inl ⟨w, h, Or.inr ⟨he, ?_⟩⟩
    match w, he with
    | a :: w, he =>
      simp at h
      exact h.1 ▸ he.2 a (by simp)
  | hex he => simp at h; exact Or.inr (Or.inl ⟨_, h.2, Or.inl ⟨h.1, he⟩⟩)
  | short he => simp at h; exact Or.inr (Or.inl ⟨_, h.2, Or.inr (Or.inl ⟨h.1, he⟩)⟩)
  | long he => simp at h; exact Or.inr (Or.inl ⟨_, h.2, Or.inr (Or.inr (Or.inl ⟨h.1, he⟩))⟩)
  | name he => 
    rename_i ds
    simp at h
    exact Or.inr (Or.inl ⟨b!"{" ++ ds ++ b!"}", by simp [h.2], Or.inr (Or.inr (Or.inr ⟨h.1, ds, rfl, he⟩))⟩)
  | simple he => 
    simp at h
    exact Or.inr (Or.inr (h.1 ▸ he))

theorem octal_iff (c : UInt8) : (c!"0" ≤ c ∧ c ≤ c!"7") ↔ Octal c := by
  simp [Octal, UInt8.le_iff_toNat_le]

/-- An escape of one of the common kinds. -/
theorem escape_tok {t : Bytes} {kind : EscapeKind} {k : Nat} (h0 : t[0]? = some c!"\\") (hk : k ≤ t.length)
    (good : ∀ w, Accepted kind w → Esc (t.take k ++ w))
    (bad : ∀ u v, t = u ++ v → Esc u → ∃ w, t.drop k = w ++ v ∧
      (IsEscape kind w ∨ (kind = .nonempty_braced ∧ w = b!"{}"))) :
    (matchCommonEscapeAt kind t k).length ≤ t.length ∧
    Tok t (matchCommonEscapeAt kind t k).length
      (if (matchCommonEscapeAt kind t k).erroneous then .error else .string_escape) := by
  have hl := escapeAt_le kind t k hk
  refine ⟨by omega, ?_⟩
  split
  · rename_i he
    refine Tok.badEscape h0 ?_
    intro u v h1 h2
    obtain ⟨w, h3, h4⟩ := bad u v h1 h2
    exact escapeAt_error kind t k he w v h3 h4
  · rename_i he
    have := escapeAt_accepted kind t k (by simpa using he)
    have := good _ this
    refine Tok.escape ?_
    have e : t.take k = (t.take (matchCommonEscapeAt kind t k).length).take k := by
      rw [List.take_take, Nat.min_eq_left (by omega)]
    rw [e, List.take_append_drop] at this
    exact this

/-- An escape that is not allowed in byte strings. -/
theorem bytes_tok {t : Bytes} {e : Ulight.Escape} (p : StringPrefix) (h2 : t.take 2 ∈ [b!"\\N", b!"\\u", b!"\\U"])
    (h : e.length ≤ t.length ∧ Tok t e.length (if e.erroneous then .error else .string_escape)) :
    (notInBytes e p).length ≤ t.length ∧
    Tok t (notInBytes e p).length (if (notInBytes e p).erroneous then .error else .string_escape) := by
  unfold notInBytes
  cases hp : p.isByte with
  | false => simpa using h
  | true =>
    simp only [Bool.or_true, if_true]
    exact ⟨h.1, Tok.notBytes h2⟩

theorem matchEscape_facts {t : Bytes} (p : StringPrefix) (h : t[0]? = some c!"\\") :
    (matchEscape t p).length ≤ t.length ∧
    Tok t (matchEscape t p).length (if (matchEscape t p).erroneous then .error else .string_escape) := by
  match t, h with
  | [a], h =>
    simp at h
    subst h
    refine ⟨by simp [matchEscape], ?_⟩
    simp only [matchEscape]
    refine Tok.badEscape rfl ?_
    intro u v h1 h2
    cases h2 with
    | newline h => simp at h1; rcases h with rfl | rfl | rfl <;> simp at h1
    | octal h => simp at h1; obtain ⟨rfl, rfl⟩ := h1; simp [IsEscape] at h
    | _ => simp at h1
  | a :: c :: u, h =>
    simp at h
    subst h
    have h0 : (c!"\\" :: c :: u)[0]? = some c!"\\" := rfl
    have inv := fun t v h he => @esc_inv t u v c h he
    simp only [matchEscape]
    split
    · contradiction
    split
    · rename_i hc
      refine escape_tok h0 (by simp) (fun w hw => Esc.newline hw) ?_
      intro x v h1 h2
      have := inv x v h1 h2
      simp only [List.drop_succ_cons, List.drop_zero]
      rcases hc with rfl | rfl <;> simp [Octal] at this <;> grind
    split
    · rename_i hc
      refine escape_tok h0 (by simp) (fun w hw => Esc.octal hw) ?_
      intro x v h1 h2
      have := inv x v h1 h2
      simp only [List.drop_succ_cons, List.drop_zero]
      rw [octal_iff] at hc
      rcases this with ⟨w, h3, ⟨_, h4⟩ | ⟨h4, _⟩⟩ | ⟨w, _, h4⟩ | h4
      · rcases h4 with rfl | rfl <;> simp [Octal] at hc
      · exact ⟨w, h3, Or.inl h4⟩
      · rcases h4 with ⟨rfl, _⟩ | ⟨rfl, _⟩ | ⟨rfl, _⟩ | ⟨rfl, _⟩ <;> simp [Octal] at hc
      · simp at h4
        rcases h4 with rfl | rfl | rfl | rfl | rfl | rfl | rfl | rfl | rfl | rfl <;> simp [Octal] at hc
    split
    · rename_i hc
      subst hc
      refine escape_tok h0 (by simp) (fun w hw => Esc.hex hw) ?_
      intro x v h1 h2
      have := inv x v h1 h2
      simp [Octal] at this
      simp
      grind
    split
    · rename_i hc
      subst hc
      refine bytes_tok p (by simp) (escape_tok h0 (by simp) ?_ ?_)
      · rintro w ⟨ds, rfl, hd⟩
        exact Esc.name hd
      intro x v h1 h2
      have := inv x v h1 h2
      simp [Octal] at this
      obtain ⟨w, h3, ds, h4, h5⟩ := this
      simp
      refine ⟨w, h3, ?_⟩
      by_cases hd : ds = []
      · subst hd
        exact Or.inr h4
      · exact Or.inl ⟨ds, h4, hd, h5⟩
    split
    · rename_i hc
      subst hc
      refine bytes_tok p (by simp) (escape_tok h0 (by simp) (fun w hw => Esc.short hw) ?_)
      intro x v h1 h2
      have := inv x v h1 h2
      simp [Octal] at this
      simp
      grind
    split
    · rename_i hc
      subst hc
      refine bytes_tok p (by simp) (escape_tok h0 (by simp) (fun w hw => Esc.long hw) ?_)
      intro x v h1 h2
      have := inv x v h1 h2
      simp [Octal] at this
      simp
      grind
    split
    · rename_i hc
      exact ⟨by simp, Tok.escape (by simpa using Esc.simple hc)⟩
    · rename_i h1 h2 h3 h4 h5 h6 h7
      refine ⟨by simp, Tok.badEscape h0 ?_⟩
      intro x v h8 h9
      have := inv x v h8 h9
      rw [octal_iff] at h2
      grind

theorem matchEscape_zero {t : Bytes} (p : StringPrefix) (h : t[0]? = some c!"\\")
    (hz : (matchEscape t p).length = 0) : Tok t 1 .error := by
  match t, h with
  | [a], h =>
    simp at h
    subst h
    exact Tok.rawBytesEnd rfl
  | a :: c :: u, h =>
    simp at h
    subst h
    have inv := fun t v h he => @esc_inv t u v c h he
    simp only [matchEscape] at hz
    (repeat' split at hz) <;> simp [matchCommonEscapeAt, notInBytes] at hz
    · contradiction
    · rename_i h1 h2 h3 h4 h5 h6 h7
      refine Tok.badEscape rfl ?_
      intro x v h8 h9
      have := inv x v h8 h9
      rw [octal_iff] at h2
      grind

/-- A backslash and the next character, in a raw string. -/
theorem raw_tok {t : Bytes} (p : StringPrefix) (h : t[0]? = some c!"\\") :
    1 + (decodeOrReplacement (t.drop 1)).2 ≤ t.length ∧
    Tok t (1 + (decodeOrReplacement (t.drop 1)).2)
      (if p.isByte && (decodeOrReplacement (t.drop 1)).2 != 1 then .error else .string) := by
  match t, h with
  | [a], h =>
    simp at h
    subst h
    refine ⟨by simp [decodeOrReplacement], ?_⟩
    split
    · exact Tok.rawBytesEnd rfl
    · exact Tok.rawEnd rfl
  | a :: b :: u, h =>
    simp at h
    subst h
    obtain ⟨c, p, rest, h1, h2, h3, h4⟩ := firstChar_of_decode (s := b :: u) (by simp)
    have hl := decodeOrReplacement_length (s := b :: u) (by simp)
    simp only [List.drop_succ_cons, List.drop_zero]
    refine ⟨by simp at hl ⊢; omega, ?_⟩
    split
    · rename_i hc
      simp at hc
      exact Tok.notBytesRaw (by rw [h1]) h2 (by rw [h3]) (by rw [← h3]; exact hc.2)
    · exact Tok.raw (by rw [h1]) h2 (by rw [h3])

theorem stringEscape_spec {p : StringPrefix} (g : Good rules env s) (h : s.rem[0]? = some c!"\\") :
    wp (stringEscape p) (fun _ s' => Moved rules env s s' ∧ s.idx < s'.idx) env s := by
  unfold stringEscape
  obtain ⟨hm1, hm2⟩ := matchEscape_facts p h
  obtain ⟨hr1, hr2⟩ := raw_tok p h
  hm_hyp h
  hm
  exact matchEscape_zero p h (by assumption)

theorem stringLoop_spec {p : StringPrefix} {q : Bytes} {long : Bool} {fuel : Nat} (g : Good rules env s)
    (hq : q ∈ [b!"'", b!"\"", b!"'''", b!"\"\"\""]) (hl : long = true ↔ q.length ≠ 1)
    (hf : s.rem.length < fuel) :
    wp (HM.loop fuel (stringStep p q long) 0) (fun _ s' => Moved rules env s s') env s := by
  have hq0 : 0 < q.length := by
    simp at hq
    rcases hq with rfl | rfl | rfl | rfl <;> simp
  refine wp_scan (R := rules) (fun n s' => (∀ k, k < n → ¬ OccursAt q s'.rem k) ∧
    ∀ c ∈ s'.rem.take n, c ≠ c!"\\" ∧ (q.length = 1 → InLine c)) ?_ g (Nat.zero_le _) (by simp) (by omega)
  rintro n s1 g1 h1 h2 h3 ⟨h4, h5⟩
  have str : (n = s1.rem.length ∨ OccursAt q s1.rem n ∨ s1.rem[n]? = some c!"\\" ∨
    (q.length = 1 ∧ (s1.rem[n]? = some 0x0A ∨ s1.rem[n]? = some 0x0D))) → Tok s1.rem n .string :=
    fun h => Tok.string hq ⟨h4, h5, h⟩
  unfold stringStep
  hm
  · exact fun _ => str (Or.inl (by omega))
  · rename_i hst _ _ _ _ hr _ _
    obtain ⟨u, hu⟩ := startsWith_iff.1 hst
    exact Tok.quote (by rw [hr, hu]; simpa using hq)
  · exact fun _ => str (Or.inr (Or.inl (occursAt_iff.2 ⟨by omega, by assumption⟩)))
  · exact fun _ => str (Or.inr (Or.inr (Or.inl (by grind))))
  · exact fun _ => str (Or.inr (Or.inr (Or.inr (by grind))))
  · rename_i hn _ _
    intro k hk
    rcases Nat.lt_succ_iff_lt_or_eq.1 hk with hk | rfl
    · exact h4 k hk
    · rw [occursAt_iff]
      simp [hn]
  · refine take_all_succ h5 (by assumption) ?_
    unfold InLine
    grind

theorem consumeString_spec {p : StringPrefix} (g : Good rules env s)
    (h : startsWith s.rem b!"'" = true ∨ startsWith s.rem b!"\"" = true) :
    wp (consumeString p) (fun _ s' => Moved rules env s s' ∧ s.idx < s'.idx) env s := by
  unfold consumeString
  rw [wp_bind, wp_rem, wp_bind]
  refine wp_hassert_intro (by simpa using h) ?_
  obtain ⟨q, hq1, hq2, hq3⟩ : ∃ q, (if startsWith s.rem b!"'" = true then c!"'" else c!"\"") = q ∧
      startsWith s.rem [q] = true ∧ (q = c!"'" ∨ q = c!"\"") := by
    split
    · exact ⟨_, rfl, by assumption, Or.inl rfl⟩
    · exact ⟨_, rfl, by simpa [*] using h, Or.inr rfl⟩
  simp only [hq1]
  cases hl : startsWith s.rem [q, q, q] with
  | true =>
    hm_hyp hl
    simp only [if_true]
    hm
    · refine wp_mono (stringLoop_spec (by assumption) ?_ (by simp) (by hm_len)) ?_
      · rcases hq3 with rfl | rfl <;> simp
      · intro _ s' m
        hm_hyp m
        simp only [List.length_cons, List.length_nil] at *
        hm
  | false =>
    hm_hyp hq2
    simp only [Bool.false_eq_true, if_false]
    hm
    · refine wp_mono (stringLoop_spec (by assumption) ?_ (by simp) (by hm_len)) ?_
      · rcases hq3 with rfl | rfl <;> simp
      · intro _ s' m
        hm_hyp m
        simp only [List.length_cons, List.length_nil] at *
        hm

theorem lower_iff (c : UInt8) : (lower c = c!"b" ↔ c = c!"b" ∨ c = c!"B") ∧
    (lower c = c!"f" ↔ c = c!"f" ∨ c = c!"F") ∧ (lower c = c!"r" ↔ c = c!"r" ∨ c = c!"R") ∧
    (lower c = c!"u" ↔ c = c!"u" ∨ c = c!"U") := by
  revert c
  apply forall_byte
  decide +kernel

theorem prefix_iff (w : Bytes) : (∃ p, classifyStringPrefix w = some p) ↔ Prefix w := by
  unfold classifyStringPrefix
  constructor
  · rintro ⟨p, h⟩
    rw [table_lookup prefixes_sorted] at h
    have : ∀ e ∈ prefixes, e.1.map lower ∈ [b!"b", b!"f", b!"r", b!"u", b!"br", b!"rb", b!"fr", b!"rf"] ∧
      e.1 ≠ b!"u" ∧ e.1 ≠ b!"Rf" := by decide +kernel
    exact this _ h
  · rintro ⟨h, h1, h2⟩
    have key : ∃ p, (w, p) ∈ prefixes := by
      unfold AnyPrefix at h
      match w, h with
      | [], h => simp at h
      | [a], h =>
        simp [lower_iff] at h
        rcases h with (rfl | rfl) | (rfl | rfl) | (rfl | rfl) | rfl | rfl <;> simp at h1 <;> simp [prefixes]
      | [a, b], h =>
        simp [lower_iff] at h
        rcases h with ⟨rfl | rfl, rfl | rfl⟩ | ⟨rfl | rfl, rfl | rfl⟩ | ⟨rfl | rfl, rfl | rfl⟩ |
          ⟨rfl | rfl, rfl | rfl⟩ <;> simp at h2 <;> simp [prefixes]
      | a :: b :: c :: t, h => simp at h
    obtain ⟨p, hp⟩ := key
    exact ⟨p, (table_lookup prefixes_sorted _ _).2 hp⟩

theorem prefixChar_iff (c : UInt8) : Bash.isId c = true ↔ PrefixChar c := by
  simp [Bash.isId, PrefixChar, isAlnum_iff, or_assoc]

theorem prefix_facts (t : Bytes) : Bash.matchIdentifier t ≤ t.length ∧
    (0 < Bash.matchIdentifier t → Longest PrefixChar t (Bash.matchIdentifier t) ∧
      ∃ c, t[0]? = some c ∧ PrefixChar c) := by
  unfold Bash.matchIdentifier Ascii.length_if_head_tail
  cases t with
  | nil => simp
  | cons c u =>
    simp only
    split
    · simp
    · rename_i hc
      have hi : Bash.isId c = true := by
        simp [Bash.isIdStart, Bash.isId, isAlnum] at hc ⊢
        grind
      have e : (Ascii.findLoop Bash.isId false 1 u).getD (c :: u).length = Ascii.length_if (c :: u) Bash.isId := by
        simp [Ascii.length_if, Ascii.findLoop, hi]
      rw [e]
      have := length_if_le (c :: u) Bash.isId 0 (by simp)
      exact ⟨this.2, fun _ => ⟨length_if_zero_longest _ _ _ prefixChar_iff, c, rfl, (prefixChar_iff c).1 hi⟩⟩

theorem expectStringLiteral_spec : ExpectsOr rules expectStringLiteral
    (fun s => startsWith s.rem b!"'" = false ∧ startsWith s.rem b!"\"" = false) := by
  intro env s g
  unfold expectStringLiteral
  obtain ⟨h1, h2⟩ := prefix_facts s.rem
  hm
  · simp [*]
  · by_cases hp : 0 < Bash.matchIdentifier s.rem
    · obtain ⟨_, c, h3, h4⟩ := h2 hp
      cases hr : s.rem with
      | nil => simp [hr] at h3
      | cons a t =>
        simp [hr] at h3
        subst h3
        constructor
        · rw [startsWith_cons_one]; simp; rintro rfl; simp [PrefixChar, Letter, DecDigit] at h4
        · rw [startsWith_cons_one]; simp; rintro rfl; simp [PrefixChar, Letter, DecDigit] at h4
    · have : Bash.matchIdentifier s.rem = 0 := by omega
      simp_all
  · rename_i hq
    intro hp
    obtain ⟨h3, _⟩ := h2 hp
    have hq' : s.rem[Bash.matchIdentifier s.rem]? = some c!"'" ∨
        s.rem[Bash.matchIdentifier s.rem]? = some c!"\"" := by
      cases h' : startsWith (s.rem.drop (Bash.matchIdentifier s.rem)) b!"'" with
      | true => exact Or.inl (startsWith_drop_facts h')
      | false => exact Or.inr (startsWith_drop_facts (hq h'))
    have := prefix_iff (s.rem.take (Bash.matchIdentifier s.rem))
    split
    · rename_i he
      refine Tok.badPrefix h3 ?_ hq'
      rw [← this]
      simp at he
      simp [he]
    · rename_i he
      refine Tok.decor ?_ hq'
      rw [← this]
      simp at he
      have := he (by omega)
      exact Option.ne_none_iff_exists'.1 this

theorem number_digit {t : Bytes} (h : (matchCommonNumber t numberOptions).length = 0) :
    ∀ b, t[0]? = some b → ¬ DecDigit b := by
  intro b hb hd
  cases t with
  | nil => simp at hb
  | cons c t =>
    simp at hb
    subst hb
    exact number_ne_zero numberOptions ⟨by decide, by decide, by decide⟩ _ c t rfl
      ((isDigit_iff c).2 hd) h

theorem unknown_tok {t : Bytes} (h : t ≠ []) (sp : ∀ c, t[0]? = some c → ¬ Space c)
    (cm : startsWith t b!"#" = false) (q1 : startsWith t b!"'" = false) (q2 : startsWith t b!"\"" = false)
    (id : t ≠ [] → NoFirst CppId.Start t) (num : (matchCommonNumber t numberOptions).length = 0)
    (sym : ∀ w ∈ symbols, startsWith t w = false) : Tok t (decodeOrReplacement t).2 .error := by
  obtain ⟨c, p, rest, h1, h2, h3, h4⟩ := firstChar_of_decode h
  refine Tok.unknown h1 h2 h3 (id h c p rest h1 h2) ?_ ?_
  · intro w hw
    rw [occursAt_zero, sym w hw]
    simp
  · intro b hb
    refine ⟨number_digit num b hb, sp b hb, ?_⟩
    cases t with
    | nil => simp at hb
    | cons a t =>
      simp only [List.getElem?_cons_zero, Option.some.injEq] at hb
      subst hb
      rw [startsWith_cons_one] at cm q1 q2
      simp at cm q1 q2
      simp [cm, q1, q2]

theorem step_spec (g : Good rules env s) (h : s.rem ≠ []) :
    wp step (fun _ s' => Good rules env s' ∧ s.idx < s'.idx) env s := by
  unfold step
  hm_hyp h
  hm
  · have := g.len
    have := List.length_pos_iff.2 h
    simp_all
    omega
  exact unknown_tok (by assumption) (by assumption) (by assumption) (by assumption) (by assumption)
    (by assumption) (by assumption) (by assumption)

theorem highlight_tiles (debug : Bool) (opts : Opts) (src : Bytes) :
    ∃ es, highlight debug opts src = .ok (true, es) ∧
      Tiles rules src src.length (es.map Emit.token) := by
  obtain ⟨good, es, h1, rfl, h2⟩ := run_of_wp (m := run) (ext := ()) (R := rules) (debug := debug)
    (opts := opts) (src := src) (P := fun b => b = true) (by
      intro s g hr hi _
      unfold run
      hm
      refine wp_while_moved (R := rules) (fun _ => True) ?_ g trivial (by omega) ?_
      · intro s1 g1 _ _ _ _
        hm
      · intros
        hm
        )
  exact ⟨es, h1, h2⟩

/-- Words are looked up as the specification says. -/
theorem C33_python (w : Bytes) (ty : HT) : highlightByCode w = some ty ↔ (w, ty) ∈ words :=
  (table_lookup tokens_sorted w ty).trans (words_iff _)

example : highlightByCode b!"lambda" = some .keyword ∧ highlightByCode b!"None" = some .null ∧
    highlightByCode b!"lambd" = none := by decide +kernel

/-- Every token of a Python file is what its type says, and text without a token is whitespace. -/
theorem C41_python_tokens (debug : Bool) (opts : Opts) (src : Bytes) :
    ∃ es, highlight debug opts src = .ok (true, es) ∧
      Tiles rules src src.length (es.map Emit.token) :=
  highlight_tiles debug opts src

/-- What is highlighted. -/
def tokensOf (src : Bytes) : Option (List Token) :=
  (highlight true {} src).toOption.map (fun r => r.2.map Emit.token)

example : tokensOf b!"x = rb'a\\'' # y" =
    some [⟨0, 1, .name⟩, ⟨2, 1, .symbol_punc⟩, ⟨4, 2, .string_decor⟩, ⟨6, 1, .string_delim⟩, ⟨7, 1, .string⟩,
      ⟨8, 2, .string⟩, ⟨10, 1, .string_delim⟩, ⟨12, 1, .comment_delim⟩, ⟨13, 2, .comment⟩] := by decide +kernel

example : tokensOf b!"1_0.5e3j" =
    some [⟨0, 1, .number⟩, ⟨1, 1, .number_delim⟩, ⟨2, 1, .number⟩, ⟨3, 1, .number_delim⟩, ⟨4, 1, .number⟩,
      ⟨5, 1, .number_delim⟩, ⟨6, 1, .number⟩, ⟨7, 1, .number_decor⟩] := by decide +kernel

/-- A short octal escape. -/
def ShortOctal (w : Bytes) : Prop :=
  ∃ ds, w = c!"\\" :: ds ∧ 1 ≤ ds.length ∧ ds.length ≤ 3 ∧ ∀ c ∈ ds, Octal c

/-- Valid literals are reported as errors: the string prefixes `u` and `Rf`, octal escapes of less
than three digits, numbers that begin with a point, and a keyword directly before a string. -/
theorem C41_valid_reported :
    (AnyPrefix b!"u" ∧ tokensOf b!"u''" = some [⟨0, 1, .error⟩, ⟨1, 1, .string_delim⟩, ⟨2, 1, .string_delim⟩]) ∧
    (AnyPrefix b!"Rf" ∧ tokensOf b!"Rf''" = some [⟨0, 2, .error⟩, ⟨2, 1, .string_delim⟩, ⟨3, 1, .string_delim⟩]) ∧
    (ShortOctal b!"\\0" ∧ tokensOf b!"'\\0'" = some [⟨0, 1, .string_delim⟩, ⟨1, 2, .error⟩, ⟨3, 1, .string_delim⟩]) ∧
    tokensOf b!".5" = some [⟨0, 2, .error⟩] ∧
    tokensOf b!"return''" = some [⟨0, 6, .error⟩, ⟨6, 1, .string_delim⟩, ⟨7, 1, .string_delim⟩] := by
  refine ⟨⟨by unfold AnyPrefix; decide, by decide +kernel⟩, ⟨by unfold AnyPrefix; decide, by decide +kernel⟩,
    ⟨⟨b!"0", rfl, by decide, by decide, by simp [Octal]⟩, by decide +kernel⟩, by decide +kernel,
    by decide +kernel⟩

end Ulight.Python
