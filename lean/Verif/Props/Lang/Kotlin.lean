import Verif.Hl.Parts
import Verif.Hl.Whole
import Verif.Hl.Words
import Verif.Lang.Kotlin
import Verif.Spec.Lang.Kotlin

/-!
# Kotlin: every token says something true about its text
-/

namespace Ulight.Kotlin

open Spec Spec.Kotlin Utf8

set_option maxRecDepth 2000

variable {env : HEnv} {s : HS Unit} {D : Prop}

theorem tokens_sorted : SortedTable tokens := by decide +kernel

theorem tokens_some : ∀ e ∈ tokens, e.2 ≠ .none := by decide +kernel

/-- The table has the words of the specification. -/
theorem words_iff (x : Bytes × HT) : x ∈ tokens ↔ x ∈ words := sameWords_iff (by decide +kernel) x

/-- The symbols in the order of the table. -/
def sortedSymbols : List Bytes := (tokens.map Prod.fst).filter fun w =>
  !(w.all isAlpha) && w ≠ b!"=>"

theorem sortedSymbols_iff (w : Bytes) : w ∈ sortedSymbols ↔ w ∈ symbols := by
  simp [sortedSymbols, symbols, words_iff]

theorem symbols_sorted : sortedSymbols.Pairwise (fun a b => bytesLt a b = true) := by decide +kernel

theorem symbols_tokens : ∀ w ∈ sortedSymbols, ∃ ty, (w, ty) ∈ tokens := by
  intro w hw
  simp only [sortedSymbols, List.mem_filter, List.mem_map] at hw
  obtain ⟨⟨e, he, rfl⟩, _⟩ := hw
  exact ⟨e.2, he⟩

theorem space_iff (c : UInt8) : Python.isWhitespace c = true ↔ Space c := by
  simp [Python.isWhitespace, Space, or_assoc]

theorem matchSymbol_eq (t : Bytes) : matchSymbol t = sortedSymbols.reverse.find? (startsWith t ·) := by
  have e : sortedSymbols = [b!"!", b!"!=", b!"!in", b!"!is", b!"\"", b!"\"\"\"", b!"#", b!"%", b!"%=",
      b!"&&", b!"(", b!")", b!"*", b!"*=", b!"+", b!"++", b!"+=", b!",", b!"-", b!"--", b!"-=",
      b!"->", b!".", b!"..", b!"...", b!"/", b!"/=", b!":", b!"::", b!";", b!";;", b!"<", b!"<=",
      b!"=", b!"==", b!"===", b!">", b!">=", b!"?", b!"?.", b!"?:", b!"@", b!"[", b!"]", b!"as?",
      b!"break@", b!"continue@", b!"return@", b!"super@", b!"this@", b!"{", b!"||",
      b!"}"] := by decide +kernel
  match t with
  | [] => rw [e]; rfl
  | c :: t =>
    rw [find_tails c t sortedSymbols (by decide +kernel), e]
    clear e
    by_cases hc : c ∈ b!"!\"#%&()*+,-./:;<=>?@[]abcrst{|}"
    · symbol_cases matchSymbol t hc
    · simp only [List.mem_cons, List.not_mem_nil, or_false, not_or] at hc
      have hc' := hc
      simp only [eq_comm (a := c)] at hc'
      simp [matchSymbol, hc, tailsOf, hc']

theorem numPrefix_kotlin (t : Bytes) : (numPrefix numberOptions t).2.2 = false ∨
    ((numPrefix numberOptions t).1 = 0 ∧ (numPrefix numberOptions t).2.1 = 10) := by
  unfold numPrefix
  split
  · rename_i p h
    left
    have := List.mem_of_find?_eq_some h
    simp [numberOptions] at this
    rcases this with rfl | rfl | rfl | rfl <;> rfl
  · right
    simp [numberOptions]

theorem sepDigits_empty {t : Bytes} {base : Nat} {sep : UInt8} (h : t ≠ [])
    (h0 : (matchSeparatedDigits t base sep).length = 0) :
    (matchSeparatedDigits t base sep).erroneous = false := by
  unfold matchSeparatedDigits at *
  split at h0
  · simp [*]
  · match t, h with
    | c :: t, _ =>
      simp only [sepLoop] at h0 ⊢
      split at h0
      · simp at h0
      · split at h0
        · simp at h0
        · simp [*]

/-- A number with a point has no prefix. -/
theorem number_point (t : Bytes) (h : (matchCommonNumber t numberOptions).radixPoint ≠ 0) :
    (matchCommonNumber t numberOptions).sign = 0 ∧ (matchCommonNumber t numberOptions).pre = 0 ∧
    (matchCommonNumber t numberOptions).integer = (matchSeparatedDigits t 10 c!"_").length ∧
    ((matchCommonNumber t numberOptions).fractional = 0 → (matchCommonNumber t numberOptions).exponentSep = 0 →
      (matchCommonNumber t numberOptions).suffix = 0 →
      (matchCommonNumber t numberOptions).length < t.length →
      (matchCommonNumber t numberOptions).erroneous = true → (matchSeparatedDigits t 10 c!"_").erroneous = true) := by
  generalize hr : matchCommonNumber t numberOptions = r at *
  unfold matchCommonNumber at hr
  have hsg : numSign numberOptions t = 0 := by simp [numSign, numberOptions]
  split at hr
  · subst hr; simp at h
  simp only [hsg, List.drop_zero, Nat.zero_add] at hr
  rcases numPrefix_kotlin t with hp | ⟨hp1, hp2⟩
  · simp only [hp, numFraction, Bool.false_and] at hr
    simp only [Bool.false_eq_true, if_false] at hr
    split at hr <;> subst hr <;> simp at h
  · simp only [hp1, hp2, List.drop_zero, Nat.zero_add] at hr
    split at hr
    · subst hr; simp at h
    rename_i f hf
    split at hr
    · subst hr; simp at h
    subst hr
    refine ⟨rfl, rfl, rfl, ?_⟩
    dsimp only at h ⊢
    intro h1 h2 h3 h4 h5
    simp only [show numberOptions.digitSeparator = c!"_" from rfl] at *
    simp only [Bool.or_eq_true, Bool.and_eq_true, beq_iff_eq] at h5
    rcases h5 with (((⟨h5, _⟩ | h5) | h5) | h5) | h5
    · simp [numberOptions] at h5
    · exact h5
    · exfalso
      unfold numFraction at hf
      split at hf
      · dsimp only at hf
        split at hf
        · cases hf
        simp only [Option.some.injEq] at hf
        subst hf
        dsimp only at *
        rw [sepDigits_empty ?_ h1] at h5
        · simp [numberOptions] at h5
        · intro e
          have := congrArg List.length e
          simp at this
          omega
      · simp only [Option.some.injEq] at hf
        subst hf
        simp at h
    · exfalso
      split at h5
      · rename_i hc
        rw [if_pos (by simpa using hc)] at h2
        obtain ⟨a, d, u, _, ha, _, _, _, he, _⟩ := numExponent_spec numberOptions
          (List.drop ((matchSeparatedDigits t 10 c!"_").length + f.1 + f.2.1) t)
        have := (he.1 h5).1
        rw [h2] at ha
        simp [List.length_eq_zero_iff] at ha
        subst ha
        simp [numberOptions] at this
      · simp at h5
    · omega

theorem fits : Fits numberOptions numerals := by
  constructor <;> simp [numberOptions, numerals]

theorem split_three (u : Bytes) (a b c : Nat) (h : a + b + c ≤ u.length) :
    ∃ x y z w, u = x ++ y ++ z ++ w ∧ x.length = a ∧ y.length = b ∧ z.length = c := by
  refine ⟨u.take a, (u.drop a).take b, (u.drop (a + b)).take c, u.drop (a + b + c), ?_, ?_, ?_, ?_⟩
  · simp only [List.append_assoc, ← List.drop_drop, List.take_append_drop]
  all_goals simp; omega

theorem matchNumber_facts (t : Bytes) :
    ((matchNumber t).length = 0 ∧ ∀ b, t[0]? = some b → ¬ DecDigit b) ∨
    (∃ p rest, t = NumberParts.text p ++ rest ∧ numerals.Parts p ∧ LengthsOf (matchNumber t) p ∧
      ((matchNumber t).erroneous = true → p.Malformed c!"_")) ∨
    (Displaced t ∧ ∃ p rest, t = NumberParts.text p ++ rest ∧ LengthsOf (matchNumber t) p) := by
  have hpt := number_point t
  rcases C23_parts t numberOptions (fun f h => (fits.matchSuffix f h).1) with h | ⟨p, hp⟩
  · left
    constructor
    · simp [matchNumber, h]
    · intro b hb hd
      cases t with
      | nil => simp at hb
      | cons c t =>
        simp at hb
        subst hb
        exact number_ne_zero numberOptions ⟨by decide, by decide, by decide⟩ _ c t rfl
          ((isDigit_iff c).2 hd) (by rw [h])
  have hP := fits.parts hp
  obtain ⟨rest, ht⟩ := hp.text
  have hL := hp.lengths
  have hr := hp.reason fits.noEmpty
  obtain ⟨r, er⟩ : ∃ r, matchCommonNumber t numberOptions = r := ⟨_, rfl⟩
  have hm : matchNumber t = if r.radixPoint ≠ 0 ∧ r.fractional = 0 ∧ t[r.length]? = some c!"." then
      { r with radixPoint := 0, length := r.length - 1 } else r := by
    have : (r.erroneous || ((r.fractional != 0 || r.radixPoint != 0) && r.pre != 0)) = r.erroneous := by
      by_cases h : r.radixPoint = 0
      · have : r.fractional = 0 := by
          rcases hp.pointOk with ⟨_, h1⟩ | h1
          · rw [← er, hp.fraction, h1]; rfl
          · have := hp.point
            rw [er, h, h1] at this
            cases this
        simp [h, this]
      · rw [er] at hpt
        simp [(hpt h).2.1]
    simp only [matchNumber, er, this]
  rw [hm]
  rw [er] at hpt hL hr
  clear er hm
  split
  · rename_i hc
    obtain ⟨h1, h2, h3⟩ := hc
    obtain ⟨h4, h5, h6, h7⟩ := hpt h1
    have e1 : p.sign = [] := List.length_eq_zero_iff.1 (by rw [← hL.sign, h4])
    have e2 : p.pre = [] := List.length_eq_zero_iff.1 (by rw [← hL.pre, h5])
    have e3 : p.point = b!"." := by
      rcases hp.pointOk with ⟨h, _⟩ | h
      · have := hL.point
        rw [h] at this
        exact absurd this h1
      · exact h
    have e4 : p.fraction = [] := List.length_eq_zero_iff.1 (by rw [← hL.fraction, h2])
    have hlen : r.length = p.integer.length + 1 + p.expSep.length + p.expDigits.length + p.suffix.length := by
      rw [hL.length]
      simp [NumberParts.text, e1, e2, e3, e4]
      omega
    have hrest : ∃ rest', rest = b!"." ++ rest' := by
      rw [ht, hL.length, List.getElem?_append_right (by omega)] at h3
      simp at h3
      cases rest with
      | nil => simp at h3
      | cons a u => simp at h3; subst h3; exact ⟨u, rfl⟩
    by_cases he : p.expSep ++ p.suffix = []
    · obtain ⟨e5, e6⟩ := List.append_eq_nil_iff.1 he
      have e7 : p.expDigits = [] := by
        rcases hp.expOk with h | h
        · exact h.2
        · rw [e5] at h
          simp [numberOptions] at h
      simp [NumberParts.text, e1, e2, e3, e4, e5, e6, e7] at ht
      simp [e5, e6, e7] at hlen
      by_cases h0 : p.integer = []
      · left
        simp [hlen, h0]
        simp [ht, h0, DecDigit]
      · right; left
        have h0' := List.length_pos_iff.2 h0
        have hlt : r.length < t.length := by
          obtain ⟨rest', rfl⟩ := hrest
          rw [ht, hlen]; simp
        refine ⟨⟨[], [], p.integer, [], [], [], [], []⟩, c!"." :: rest, ?_, ?_, ?_, ?_⟩
        · simp [NumberParts.text, ht]
        · constructor <;> simp
          exact hP.integer
        · constructor <;> simp [NumberParts.text, h4, h5, h2, hlen, hL.integer, hL.expSep, hL.expDigits,
            hL.suffix, e5, e6, e7]
          omega
        · intro her
          have hs1 := h7 h2 (by rw [hL.expSep, e5]; rfl) (by rw [hL.suffix, e6]; rfl) hlt her
          have := digits_reason numberOptions 10 t p.integer (c!"." :: rest) ht
            (by rw [← hL.integer]; exact h6) hs1
          rcases this with h | ⟨h, h'⟩
          · exact Or.inl h
          · exact Or.inr (Or.inr (Or.inr ⟨h, Or.inl h'⟩))
    · right; right
      obtain ⟨rest', rfl⟩ := hrest
      refine ⟨⟨p, rest', by simpa using ht, hP, e3, e4, he⟩, ?_⟩
      have hpos : 0 < p.expSep.length + p.suffix.length := by
        rw [← List.length_append]
        exact List.length_pos_iff.2 he
      obtain ⟨x, y, z, w, e5, e6, e7, e8⟩ := split_three (b!"." ++ p.expSep ++ p.expDigits ++ p.suffix)
        p.expSep.length p.expDigits.length p.suffix.length (by simp; omega)
      simp [NumberParts.text, e1, e2, e3, e4] at ht
      refine ⟨⟨[], [], p.integer, [], [], x, y, z⟩, w ++ c!"." :: rest', ?_, ?_⟩
      · have : t = p.integer ++ (b!"." ++ p.expSep ++ p.expDigits ++ p.suffix) ++ (c!"." :: rest') := by
          simp [ht]
        rw [this, e5]
        simp [NumberParts.text]
      · constructor <;> simp [NumberParts.text, h4, h5, h2, hlen, hL.integer, hL.expSep, hL.expDigits,
            hL.suffix, e6, e7, e8]
        · omega
        · omega
  · right; left
    exact ⟨p, rest, ht, hP, hL, hr⟩

theorem expectNumber_spec (hD : ∀ k, Displaced (env.src.drop k) → D) (g : Good (rules D) env s) :
    ExpectsAt (rules D) env s expectNumber (∀ b, s.rem[0]? = some b → ¬ DecDigit b) := by
  unfold ExpectsAt expectNumber
  have hl := g.len
  rw [wp_bind, wp_rem]
  rcases matchNumber_facts s.rem with ⟨h, h'⟩ | ⟨p, rest, h1, h2, h3, h4⟩ | ⟨h, p, rest, h1, h3⟩
  · simp only [h, if_true, wp_pure]
    exact Or.inr ⟨trivial, trivial, h'⟩
  · have h0 := h3.nonempty
    simp only [Nat.ne_of_gt h0, if_false, wp_bind]
    refine wp_number_of (R := rules D) (N := numerals) (by simp [numerals]) (by decide) (fun _ _ _ => Tok.number)
      h2 h3 h1 h4 g ?_
    intro s' g' _ _ hi _
    rw [wp_pure]
    exact Or.inl ⟨rfl, g', by omega⟩
  · have h0 := h3.nonempty
    have d := hD s.idx (by rw [← g.rem]; exact h)
    have tok : ∀ t n ty, ty ∈ [HT.number, .number_delim, .number_decor, .error] → (rules D).tok t n ty :=
      fun _ _ _ => Tok.displaced d
    simp only [Nat.ne_of_gt h0, if_false, wp_bind]
    refine wp_number_parts (R := rules D) (D := fun _ => True) (by decide) (fun _ _ _ _ => tok _ _ _ (by simp))
      (fun _ _ _ => tok _ _ _ (by simp)) h3 h1 (fun _ => tok _ _ _ (by simp)) (fun _ _ => tok _ _ _ (by simp))
      (fun _ _ => trivial) (fun _ _ => tok _ _ _ (by simp)) (fun _ _ => trivial) (fun _ _ => tok _ _ _ (by simp))
      (fun _ _ => trivial) (fun _ _ => tok _ _ _ (by simp)) g ?_
    intro s' g' _ _ hi _
    rw [wp_pure]
    exact Or.inl ⟨rfl, g', by omega⟩

theorem matchSymbol_facts (t : Bytes) :
    (∃ w ty, matchSymbol t = some w ∧ highlightByCode w = some ty ∧ ty ≠ .none ∧ 0 < w.length ∧
      w.length ≤ t.length ∧ Tok D t w.length ty) ∨
    (matchSymbol t = none ∧ ∀ w ∈ symbols, startsWith t w = false) := by
  rw [matchSymbol_eq]
  rcases symbol_facts symbols_sorted symbols_tokens t with ⟨w, ty, h, h1, h2, h3, h4, h5, h6⟩ | h
  · refine Or.inl ⟨w, ty, h, (table_lookup tokens_sorted w ty).2 h1, tokens_some _ h1, ?_, h4,
      Tok.symbol (longestIn_congr sortedSymbols_iff h6) ((words_iff _).1 (by rwa [h5]))⟩
    have : ∀ w ∈ sortedSymbols, 0 < w.length := by decide +kernel
    exact this w h2
  · exact Or.inr ⟨h.1, fun w hw => h.2 w ((sortedSymbols_iff w).2 hw)⟩

theorem consumeWhitespace_spec (g : Good (rules D) env s) :
    wp consumeWhitespace (fun _ s' => Moved (rules D) env s s' ∧
      s'.rem = s.rem.drop (Ascii.length_if s.rem Python.isWhitespace) ∧
      ∀ c, s'.rem[0]? = some c → ¬ Space c) env s := by
  unfold consumeWhitespace
  have h := length_if_zero_longest s.rem Python.isWhitespace Space space_iff
  have h1 := h.1
  have h2 := h.2
  hm

theorem expectLineComment_spec : ExpectsOr (rules D) expectLineComment
    (fun s => startsWith s.rem b!"//" = false) := by
  intro env s g
  unfold expectLineComment
  rcases Js.matchLineComment_facts s.rem with ⟨h1, h2⟩ | ⟨h1, h2, h3, h4⟩
  · hm
  · hm_hyp h3
    hm

theorem expectBlockComment_spec : ExpectsOr (rules D) expectBlockComment
    (fun s => startsWith s.rem b!"/*" = false) := by
  intro env s g
  unfold expectBlockComment
  have hb := (blockComment_facts s.rem).2
  simp only [wp_bind, wp_rem, Js.matchBlockComment_eq]
  hm
  · refine wp_blockComment (R := rules D) (fun t => Tok.commentDelim (by simp))
      (fun t => Tok.commentDelim (by simp)) (fun _ _ => Tok.blockComment) (by assumption) (by assumption) ?_
    intros
    hm

theorem identifier_tok {t : Bytes} {n : Nat} (h : Identifier CppId.Start CppId.Continue t n) :
    Tok D t n ((highlightByCode (t.take n)).getD .name) ∧
      (highlightByCode (t.take n)).getD .name ≠ .none := by
  cases hh : highlightByCode (t.take n) with
  | none =>
    refine ⟨Tok.name h ?_, by decide⟩
    intro ty hty
    have := (table_lookup tokens_sorted (t.take n) ty).2 ((words_iff _).2 hty)
    simp [highlightByCode] at hh
    simp [hh] at this
  | some ty =>
    have := (table_lookup tokens_sorted (t.take n) ty).1 hh
    exact ⟨Tok.keyword h ((words_iff _).1 this), tokens_some _ this⟩

theorem expectIdentifier_spec : ExpectsOr (rules D) expectIdentifier
    (fun s => s.rem ≠ [] → NoFirst CppId.Start s.rem) := by
  intro env s g
  unfold expectIdentifier
  have hl := Cpp.matchIdentifier_facts s.rem
  hm_hyp hl
  hm
  · exact (identifier_tok (D := D) (by grind)).2
  · exact (identifier_tok (by grind)).1

theorem expectSymbol_spec : ExpectsOr (rules D) expectSymbol
    (fun s => ∀ w ∈ symbols, startsWith s.rem w = false) := by
  intro env s g
  unfold expectSymbol
  rcases matchSymbol_facts (D := D) s.rem with ⟨w, ty, h1, h2, h3, h4, h5, h6⟩ | ⟨h1, h2⟩
  · rw [wp_bind, wp_rem, h1]
    simp only [h2]
    hm
  · rw [wp_bind, wp_rem, h1]
    hm

theorem matchEscape_facts {t : Bytes} (h : t[0]? = some c!"\\") : EscapeFacts escapes t (matchEscape t) ∧
    0 < (matchEscape t).length := by
  constructor
  · refine escape_facts (by decide) ?_ ?_ (by decide) h
    · simp [escapes, matchEscape, EscapeForm.run]
    · intro c hc u
      simp [escapes] at hc
      simp only [matchEscape]
      simp [hc]
  · match t, h with
    | [a], _ => simp [matchEscape]
    | a :: b :: u, h =>
      simp only [matchEscape]
      (repeat' split) <;> simp [matchCommonEscapeAt]

theorem consumeEscape_spec (g : Good (rules D) env s) (h : s.rem[0]? = some c!"\\") :
    wp consumeEscape (fun _ s' => Moved (rules D) env s s' ∧ s.idx < s'.idx) env s := by
  unfold consumeEscape
  obtain ⟨⟨h1, h2, h3⟩, h4⟩ := matchEscape_facts h
  hm
  split
  · exact Tok.badEscape (h3 (by assumption))
  · rename_i h
    exact Tok.escape (h2 (Bool.eq_false_iff.2 h))

theorem dottedLoop_spec {fuel : Nat} (g : Good (rules D) env s) (hf : s.rem.length < fuel) :
    wp (HM.loop fuel dottedStep ()) (fun _ s' => Moved (rules D) env s s' ∧
      (Cpp.matchIdentifier s.rem ≠ 0 → s.idx < s'.idx)) env s := by
  refine wp_loop_moved (R := rules D) (fun _ s1 => s1 = s ∨ s.idx < s1.idx) ?_ g (Or.inl rfl) hf
  intro _ s1 g1 h1 h2 h3
  unfold dottedStep
  have hl := Cpp.matchIdentifier_facts s1.rem
  hm_hyp hl
  hm

theorem consumeDotted_spec (g : Good (rules D) env s) :
    wp consumeDotted (fun _ s' => Moved (rules D) env s s' ∧
      (Cpp.matchIdentifier s.rem ≠ 0 → s.idx < s'.idx)) env s := by
  unfold consumeDotted
  rw [wp_bind, wp_rem]
  exact dottedLoop_spec g (by omega)

theorem noId {t : Bytes} (h : Cpp.matchIdentifier t = 0) : ∀ m, ¬ Identifier CppId.Start CppId.Continue t m := by
  have hl := Cpp.matchIdentifier_facts t
  refine not_identifier ?_
  grind

theorem multiLoop_spec {fuel : Nat} (g : Good (rules D) env s) (hf : s.rem.length < fuel) :
    wp (HM.loop fuel multiStep ()) (fun _ s' => Moved (rules D) env s s') env s := by
  refine wp_loop_moved (R := rules D) (fun _ _ => True) ?_ g trivial hf
  intro _ s1 g1 h1 h2 _
  unfold multiStep
  hm
  rename_i h3 _ h4 _ h5
  exact Tok.badAnnotation rfl (fun c hc => ⟨h3 c hc, ne_of_startsWith hc h4⟩) (noId h5)

theorem openName_tok {t : Bytes} {n : Nat} (h : startsWith t b!"`" = true) (h1 : 1 ≤ n)
    (h2 : ∀ c ∈ (t.drop 1).take (n - 1), c ≠ c!"`" ∧ InLine c)
    (h3 : ∀ c, t[n]? = some c → c = 0x0D ∨ c = 0x0A) : Tok D t n .error := by
  refine Tok.openName h h1 ⟨h2, ?_⟩ ?_
  · intro c hc
    rw [List.getElem?_drop, show 1 + (n - 1) = n by omega] at hc
    rcases h3 c hc with rfl | rfl <;> simp [InLine]
  · intro e
    have := h3 _ e
    simp at this

theorem quotedName_tok {t : Bytes} {n : Nat} (h1 : 1 ≤ n) (h2 : ∀ c ∈ (t.drop 1).take (n - 1), c ≠ c!"`" ∧ InLine c)
    (h3 : t[n]? = some c!"`") : Tok D (t.drop 1) (n - 1) .name := by
  have h4 : (t.drop 1)[n - 1]? = some c!"`" := by
    rw [List.getElem?_drop, show 1 + (n - 1) = n by omega, h3]
  refine Tok.quotedName ⟨?_, Or.inr ?_⟩ (fun c hc => (h2 c hc).2)
  · intro k hk
    rw [occursAt_iff] at hk
    refine Nat.le_of_not_lt fun hlt => ?_
    have h5 : k < (t.drop 1).length := by
      have := (List.getElem?_eq_some_iff.1 h4).1
      omega
    refine (h2 (t.drop 1)[k] ?_).1 ?_
    · rw [List.mem_iff_getElem?]
      exact ⟨k, by rw [List.getElem?_take, if_pos hlt, List.getElem?_eq_getElem h5]⟩
    · have := hk.2
      rw [List.drop_eq_getElem_cons h5, startsWith_cons_one] at this
      simpa using this
  · have h5 := (List.getElem?_eq_some_iff.1 h4).1
    refine occursAt_iff.2 ⟨by omega, ?_⟩
    rw [List.drop_eq_getElem_cons h5, startsWith_cons_one]
    rw [List.getElem?_eq_getElem h5] at h4
    simpa using h4

theorem backtickLoop_spec {fuel : Nat} (g : Good (rules D) env s) (hf : s.rem.length < fuel)
    (h : startsWith s.rem b!"`" = true) :
    wp (HM.loop fuel backtickStep 1) (fun _ s' => Moved (rules D) env s s' ∧ s.idx < s'.idx) env s := by
  have h0 := h
  hm_hyp h
  refine wp_scan (R := rules D) (fun n s' => s' = s ∧ 1 ≤ n ∧
    ∀ c ∈ (s.rem.drop 1).take (n - 1), c ≠ c!"`" ∧ InLine c) ?_ g (by hm_len) ⟨rfl, Nat.le_refl _, by simp⟩
    (by omega)
  rintro n s1 g1 h1 h2 h3 ⟨rfl, h4, h5⟩
  unfold backtickStep
  have open_ := openName_tok (D := D) h0 h4 h5
  have name := quotedName_tok (D := D) h4 h5
  have quote : ∀ t : Bytes, t.take 1 = b!"`" → Tok D t 1 .name_delim := fun t => Tok.backtick
  hm_bare
  · exact open_ (by simp_all)
  · rename_i hc _ _ e1 e2
    subst e1 e2
    refine Tok.noName ?_
    simp [take_two_iff, hc]
    simp_all [take_one_iff]
  · rename_i hr _ _ _ _ _ e1 _ _
    rw [e1, hr, List.drop_drop, show 1 + (n - 1) = n by omega]
    exact quote _ (by simp_all)
  · rename_i hr _ _
    rw [hr]
    exact name (by simp_all)
  · exact quote _ (by assumption)
  · exact open_ (by simp_all)
  · rw [show n + 1 - 1 = (n - 1) + 1 by omega]
    refine take_all_succ h5 (c := ?_) ?_ ?_
    rotate_left
    · rw [List.getElem?_drop, show 1 + (n - 1) = n by omega]
      assumption
    · simp [InLine, *]

theorem expectBacktickIdentifier_spec : ExpectsOr (rules D) expectBacktickIdentifier
    (fun s => startsWith s.rem b!"`" = false) := by
  intro env s g
  unfold expectBacktickIdentifier
  hm_bare
  refine wp_mono (backtickLoop_spec (by assumption) (by hm_len) (by assumption)) ?_
  intro _ s' m
  hm_hyp m
  hm_bare

theorem consumeMulti_spec (g : Good (rules D) env s) (h : startsWith s.rem b!"[" = true) :
    wp consumeMulti (fun _ s' => Moved (rules D) env s s') env s := by
  unfold consumeMulti
  hm_hyp h
  hm
  refine wp_mono (multiLoop_spec (by assumption) (by hm_len)) ?_
  intro _ s' m
  hm_hyp m
  hm

theorem expectAnnotation_spec : ExpectsOr (rules D) expectAnnotation (fun _ => True) := by
  intro env s g
  unfold expectAnnotation
  have hl := Cpp.matchIdentifier_facts (s.rem.drop 1)
  hm

theorem length_before_not_quotes (t : Bytes) (h : startsWith t b!"\"\"\"" = true) :
    ∃ n rest, Ascii.length_before_not t c!"\"" = n + 3 ∧
      t = List.replicate n c!"\"" ++ b!"\"\"\"" ++ rest ∧ rest.head? ≠ some c!"\"" := by
  obtain ⟨m, hm⟩ : ∃ m, Ascii.length_before_not t c!"\"" = m := ⟨_, rfl⟩
  have hl : Ascii.length_before_not t c!"\"" = Ascii.length_if t (· == c!"\"") := rfl
  obtain ⟨h1, h2⟩ := length_if_zero_longest t (· == c!"\"") (· = c!"\"") (by simp)
  have h3 := (length_if_le t (· == c!"\"") 0 (by omega)).2
  rw [← hl, hm] at h1 h2 h3
  obtain ⟨u, rfl⟩ := startsWith_iff.1 h
  have hm3 : 3 ≤ m := by
    refine Nat.le_of_not_lt fun hlt => ?_
    have : ∀ k, k < 3 → (b!"\"\"\"" ++ u)[k]? = some c!"\"" := by
      intro k hk
      match k, hk with
      | 0, _ => rfl
      | 1, _ => rfl
      | 2, _ => rfl
    exact h2 _ (this m hlt) rfl
  refine ⟨m - 3, (b!"\"\"\"" ++ u).drop m, by omega, ?_, ?_⟩
  · have e : (b!"\"\"\"" ++ u).take m = List.replicate m c!"\"" := by
      rw [List.eq_replicate_iff]
      exact ⟨by rw [List.length_take]; omega, h1⟩
    have e3 : b!"\"\"\"" = List.replicate 3 c!"\"" := rfl
    rw [e3, List.replicate_append_replicate, show m - 3 + 3 = m by omega, ← e3, ← e, List.take_append_drop]
  · rw [List.head?_drop]
    intro e
    exact h2 _ e rfl

theorem closeMultiline_spec (g : Good (rules D) env s) (h : startsWith s.rem b!"\"\"\"" = true) :
    wp closeMultiline (fun _ s' => Moved (rules D) env s s' ∧ s.idx < s'.idx) env s := by
  unfold closeMultiline
  obtain ⟨n, rest, h1, h2, h3⟩ := length_before_not_quotes s.rem h
  have hlen : s.rem.length = n + 3 + rest.length := by
    rw [h2]
    simp
    omega
  have hq := Tok.quotes (D := D) h2 h3
  have hd : (s.rem.drop n).take 3 = b!"\"\"\"" := by
    rw [h2]
    simp
  rw [wp_bind, wp_rem, h1]
  simp only [Nat.add_sub_cancel]
  hm_bare
  exact Tok.quote (by simp_all)

theorem consumeDollar_spec {rec : HM Unit Unit} {n : Nat}
    (hrec : ∀ (s : HS Unit), Good (rules D) env s → s.rem.length < n →
      wp rec (fun _ s' => Moved (rules D) env s s' ∧ (s'.rem = [] ∨ startsWith s'.rem b!"}" = true)) env s)
    (g : Good (rules D) env s) (hn : s.rem.length ≤ n) (h : startsWith s.rem b!"$" = true) :
    wp (consumeDollar rec) (fun _ s' => Moved (rules D) env s s' ∧ s.idx < s'.idx) env s := by
  unfold consumeDollar
  have hl := Cpp.matchIdentifier_facts (s.rem.drop 1)
  have h0 := h
  hm_hyp h
  hm_bare
  · rename_i h1 _ _ _ h2 _
    refine Tok.expression ?_
    obtain ⟨t, ht⟩ := startsWith_iff.1 (h1.resolve_left h2)
    simp [ht]
  · exact Tok.expression (by simp_all)
  · refine Tok.reference h0 ?_
    grind
  · rename_i h1 h2
    refine Tok.badDollar (by assumption) ?_ (noId h2)
    obtain ⟨t, ht⟩ := startsWith_iff.1 h0
    rw [ht] at h1 ⊢
    cases t with
    | nil => simp
    | cons a t =>
      simp at h1
      simpa using Ne.symm h1

theorem stop_iff {q : Bytes} (hq : q ∈ [b!"'", b!"\"", b!"\"\"\""]) {c : UInt8} : Stop q c ↔
    (q ≠ b!"\"\"\"" ∧ (c = 0x0D ∨ c = 0x0A)) ∨ (q ≠ b!"'" ∧ c = c!"$") ∨ (q ≠ b!"\"\"\"" ∧ c = c!"\\") := by
  simp only [List.mem_cons, List.not_mem_nil, or_false] at hq
  rcases hq with rfl | rfl | rfl <;> simp [Stop] <;> grind

theorem stringLoop_spec {rec : HM Unit Unit} {n fuel : Nat} {q : Bytes} (hq : q ∈ [b!"'", b!"\"", b!"\"\"\""])
    (hrec : ∀ (s : HS Unit), Good (rules D) env s → s.rem.length < n →
      wp rec (fun _ s' => Moved (rules D) env s s' ∧ (s'.rem = [] ∨ startsWith s'.rem b!"}" = true)) env s)
    (g : Good (rules D) env s) (hn : s.rem.length ≤ n) (hf : s.rem.length < fuel) :
    wp (HM.loop fuel (stringStep rec q) 0) (fun _ s' => Moved (rules D) env s s') env s := by
  refine wp_scan (R := rules D) (fun n s' => Scanned q (Stop q) s'.rem n) ?_ g (Nat.zero_le _) (.zero _ _ _) (by omega)
  intro m s1 g1 h1 h2 h3 h4
  have hl := g.len
  have hz := Scanned.zero q (Stop q)
  have str : TextTo q (Stop q) s1.rem m → Tok D s1.rem m .string := Tok.string hq
  have a1 : s1.rem.length ≤ m → Tok D s1.rem m .string := fun h => str (h4.atEnd h h3)
  have a2 : startsWith (s1.rem.drop m) q = true → Tok D s1.rem m .string := fun h => str (h4.atQuote h h3)
  have a3 : ∀ c, s1.rem[m]? = some c → Stop q c → Tok D s1.rem m .string := fun c hc h => str (h4.atStop hc h)
  unfold stringStep
  hm_bare
  · exact fun _ => a1 (by assumption)
  · rename_i h5 _ _ _ _ hr _ _ _
    have : q = b!"'" ∨ q = b!"\"" := by simp_all
    obtain ⟨t, ht⟩ := startsWith_iff.1 h5
    refine Tok.quote ?_
    rw [hr, ht]
    rcases this with rfl | rfl <;> simp
  · exact fun _ => a2 (by assumption)
  · exact fun _ => a3 _ (by assumption) ((stop_iff hq).2 (by simp [*]))
  · rename_i hc _ _ _ _ _ e _ _ _ hr _ _
    rw [hr, startsWith_drop_one hc]
    simp [e]
  · exact fun _ => a3 _ (by assumption) ((stop_iff hq).2 (by simp [*]))
  · exact fun _ => a3 _ (by assumption) ((stop_iff hq).2 (by simp [*]))
  · exact h4.succ (by assumption) (by assumption) (by rw [stop_iff hq]; grind)

theorem terminator_facts (t : Bytes) :
    (terminator t = [] ∧ startsWith t b!"'" = false ∧ startsWith t b!"\"" = false) ∨
    (terminator t ∈ [b!"'", b!"\"", b!"\"\"\""] ∧ startsWith t (terminator t) = true) := by
  unfold terminator
  split
  · simp [*]
  split
  · split <;> simp [*]
  · simp [*]

theorem expectStringOrCharacter_spec {rec : HM Unit Unit} {n : Nat}
    (hrec : ∀ (s : HS Unit), Good (rules D) env s → s.rem.length < n →
      wp rec (fun _ s' => Moved (rules D) env s s' ∧ (s'.rem = [] ∨ startsWith s'.rem b!"}" = true)) env s)
    (g : Good (rules D) env s) (hn : s.rem.length ≤ n) :
    ExpectsAt (rules D) env s (expectStringOrCharacter rec)
      (startsWith s.rem b!"'" = false ∧ startsWith s.rem b!"\"" = false) := by
  unfold ExpectsAt expectStringOrCharacter
  have hl := g.len
  rw [wp_bind, wp_rem]
  rcases terminator_facts s.rem with ⟨h1, h2⟩ | ⟨h1, h2⟩
  · simp only [h1]
    hm_bare
  · generalize terminator s.rem = q at *
    obtain ⟨t, ht⟩ := startsWith_iff.1 h2
    have hq : q ≠ [] := by rintro rfl; simp at h1
    have hq' := List.length_pos_iff.2 hq
    have hle : q.length ≤ s.rem.length := by rw [ht]; simp
    have tok : Tok D s.rem q.length .string_delim := Tok.quote (by rw [ht, List.take_left]; exact h1)
    simp only [hq, if_false]
    hm_bare
    refine wp_mono (stringLoop_spec h1 hrec (by assumption) (by hm_len) (by hm_len)) ?_
    intro _ s' m
    hm_hyp m
    hm_bare

theorem unknown_tok {t : Bytes} (h : t ≠ []) (sp : ∀ c, t[0]? = some c → ¬ Space c)
    (q1 : startsWith t b!"'" = false) (q2 : startsWith t b!"`" = false)
    (id : t ≠ [] → NoFirst CppId.Start t) (num : ∀ b, t[0]? = some b → ¬ DecDigit b)
    (sym : ∀ w ∈ symbols, startsWith t w = false) : Tok D t (decodeOrReplacement t).2 .error := by
  obtain ⟨c, p, rest, h1, h2, h3, h4⟩ := firstChar_of_decode h
  refine Tok.unknown h1 h2 h3 (id h c p rest h1 h2) ?_ ?_
  · intro w hw
    rw [occursAt_zero, sym w hw]
    simp
  · exact fun b hb => ⟨num b hb, sp b hb, ne_of_startsWith hb q1, ne_of_startsWith hb q2⟩

theorem tokens_spec (hD : ∀ k, Displaced (env.src.drop k) → D) (n : Nat) : ∀ (string : Bool) (s : HS Unit),
    Good (rules D) env s → s.rem.length < n → wp (consumeTokens n string)
      (fun _ s' => Moved (rules D) env s s' ∧ (s'.rem = [] ∨ (string = true ∧ startsWith s'.rem b!"}" = true))) env s := by
  induction n with
  | zero => intros; omega
  | succ n ih =>
    intro string s g hn
    have ih' : ∀ (s : HS Unit), Good (rules D) env s → s.rem.length < n → wp (consumeTokens n true)
        (fun _ s' => Moved (rules D) env s s' ∧ (s'.rem = [] ∨ startsWith s'.rem b!"}" = true)) env s :=
      fun s g hn => wp_mono (ih true s g hn) (fun _ _ h => ⟨h.1, by simpa using h.2⟩)
    unfold consumeTokens
    have hl := g.len
    rw [wp_bind, wp_rem]
    generalize consumeTokens n true = rec at *
    refine wp_loop_moved (R := rules D) (fun _ _ => True) ?_ g trivial (by omega)
    intro _ s1 g1 _ _ _
    unfold tokensStep expectToken
    hm_bare
    · exact Tok.brace (by simp_all)
    · rename_i hr _ _ _ e _ h
      right
      rw [hr, e]
      exact ⟨h, rfl⟩
    · exact Tok.unmatched (by simp_all)
    · exact Tok.brace (by simp_all)
    · exact unknown_tok (List.length_pos_iff.1 (by hm_len)) (by assumption) (by assumption) (by assumption) (by assumption)
        (by assumption) (by assumption)

theorem highlight_tiles (debug : Bool) (opts : Opts) (src : Bytes) (D : Prop)
    (hD : ∀ k, Displaced (src.drop k) → D) :
    ∃ es, highlight debug opts src = .ok (true, es) ∧
      Tiles (rules D) src src.length (es.map Emit.token) := by
  obtain ⟨good, es, h1, rfl, h2⟩ := run_of_wp (m := run) (ext := ()) (R := rules D) (debug := debug)
    (opts := opts) (src := src) (P := fun b => b = true) (by
      intro s g hr hi _
      unfold run
      rw [wp_bind, wp_rem, wp_bind]
      refine wp_mono (tokens_spec hD _ false s g (by omega)) ?_
      rintro _ s' ⟨m, h⟩
      have h : s'.rem = [] := by simpa using h
      hm_hyp m
      hm_bare)
  exact ⟨es, h1, h2⟩

/-- Words are looked up as the specification says. -/
theorem C33_kotlin (w : Bytes) (ty : HT) : highlightByCode w = some ty ↔ (w, ty) ∈ words :=
  (table_lookup tokens_sorted w ty).trans (words_iff _)

example : highlightByCode b!"class" = some .keyword ∧ highlightByCode b!"null" = some .null ∧
    highlightByCode b!"clas" = none := by decide +kernel

/-- Every token of a Kotlin file is what its type says, and text without a token is whitespace.  Only
in a file with a number such as `1.f.` may the parts of a number be in the wrong place. -/
theorem C44_kotlin_tokens (debug : Bool) (opts : Opts) (src : Bytes) :
    ∃ es, highlight debug opts src = .ok (true, es) ∧
      Tiles (rules (∃ k, Displaced (src.drop k))) src src.length (es.map Emit.token) :=
  highlight_tiles debug opts src _ fun k h => ⟨k, h⟩

/-- Without such numbers, all tokens are what their types say. -/
theorem C44_kotlin_tokens_exact (debug : Bool) (opts : Opts) (src : Bytes)
    (h : ∀ k, ¬ Displaced (src.drop k)) :
    ∃ es, highlight debug opts src = .ok (true, es) ∧
      Tiles (rules False) src src.length (es.map Emit.token) :=
  highlight_tiles debug opts src False h

/-- What is highlighted. -/
def tokensOf (src : Bytes) : Option (List Token) :=
  (highlight true {} src).toOption.map (fun r => r.2.map Emit.token)

/-- There are no such numbers in a text without `.`, for example. -/
theorem not_displaced {t : Bytes} (h : c!"." ∉ t) (k : Nat) : ¬ Displaced (t.drop k) := by
  rintro ⟨p, rest, e, _⟩
  refine h (List.mem_of_mem_drop (i := k) ?_)
  rw [e]
  simp

example : (∀ k, ¬ Displaced (List.drop k b!"\"a${ {b} }$y$ \\\\$\"")) ∧
    tokensOf b!"\"a${ {b} }$y$ \\\\$\"" =
    some [⟨0, 1, .string_delim⟩, ⟨1, 1, .string⟩, ⟨2, 2, .string_interpolation_delim⟩, ⟨5, 1, .symbol_brace⟩,
      ⟨6, 1, .name⟩, ⟨7, 1, .symbol_brace⟩, ⟨9, 1, .string_interpolation_delim⟩, ⟨10, 2, .string_interpolation⟩,
      ⟨12, 1, .error⟩, ⟨13, 1, .string⟩, ⟨14, 2, .string_escape⟩, ⟨16, 1, .error⟩, ⟨17, 1, .string_delim⟩] :=
  ⟨not_displaced (by decide), by decide +kernel⟩

example : tokensOf b!"@file:[A b.C] `x y` 0x1F_u 1..2" =
    some [⟨0, 1, .name_attr_delim⟩, ⟨1, 4, .name_attr⟩, ⟨5, 1, .name_attr_delim⟩, ⟨6, 1, .symbol_square⟩,
      ⟨7, 1, .name_attr⟩, ⟨9, 1, .name_attr⟩, ⟨10, 1, .name_attr_delim⟩, ⟨11, 1, .name_attr⟩,
      ⟨12, 1, .symbol_square⟩, ⟨14, 1, .name_delim⟩, ⟨15, 3, .name⟩, ⟨18, 1, .name_delim⟩,
      ⟨20, 2, .number_decor⟩, ⟨22, 2, .number⟩, ⟨24, 1, .number_delim⟩, ⟨25, 1, .number_decor⟩,
      ⟨27, 1, .number⟩, ⟨28, 2, .symbol_punc⟩, ⟨30, 1, .number⟩] := by decide +kernel

example : tokensOf b!"\"\"\"$a\"\"\"\"\"" =
    some [⟨0, 3, .string_delim⟩, ⟨3, 2, .string_interpolation⟩, ⟨5, 2, .string⟩, ⟨7, 3, .string_delim⟩] := by
  decide +kernel

/-- In a file with such a number, the parts are in fact in the wrong place: here the exponent `E+` has
the tokens of a radix point and a digit. -/
theorem C44_displaced : Displaced b!"1.E+5." ∧
    tokensOf b!"1.E+5." =
      some [⟨0, 1, .number⟩, ⟨1, 2, .number_delim⟩, ⟨3, 1, .number⟩, ⟨4, 2, .error⟩] ∧
    ¬ Tok False (List.drop 3 b!"1.E+5.") 1 .number := by
  refine ⟨⟨⟨[], [], b!"1", b!".", [], b!"E+", b!"5", []⟩, [], rfl, ?_, rfl, rfl, by decide⟩, by decide +kernel, ?_⟩
  · constructor <;> simp [numerals, Numerals.Digits, Numerals.Digit, digitVal, DecDigit]
  · suffices ∀ s n ty, Tok False s n ty → s = b!"+5." → n = 1 → ty = .number → False from
      fun h => this _ _ _ h rfl rfl rfl
    intro s n ty h hs hn hty
    cases h with
    | keyword h t => subst hs hn hty; exact absurd t (by decide +kernel)
    | symbol h t => subst hs hn hty; exact absurd t (by decide +kernel)
    | number h =>
      cases h with
      | digits h _ => subst hs hn; simp [Numerals.Digits, Numerals.Digit, numerals, digitVal] at h
      | _ => cases hty
    | displaced h => exact h
    | _ => cases hty

/-- Valid programs are highlighted as if they were something else: `!is` and `!in` are split off from
identifiers, `UL` is not a suffix, and `super` and `=>` are not recognised. -/
theorem C44_differences :
    tokensOf b!"!isEmpty" = some [⟨0, 3, .keyword⟩, ⟨3, 5, .name⟩] ∧
    tokensOf b!"!inside" = some [⟨0, 3, .keyword⟩, ⟨3, 4, .name⟩] ∧
    tokensOf b!"5UL" = some [⟨0, 1, .number⟩, ⟨1, 1, .number_decor⟩, ⟨2, 1, .name⟩] ∧
    tokensOf b!"super" = some [⟨0, 5, .name⟩] ∧
    tokensOf b!"=>" = some [⟨0, 1, .symbol_punc⟩, ⟨1, 1, .symbol_op⟩] := by
  refine ⟨by decide +kernel, by decide +kernel, by decide +kernel, by decide +kernel, by decide +kernel⟩

/-- A character outside of ASCII in a list of annotations is cut after its first byte. -/
theorem C31_kotlin_splits : IsUtf8 [0x40, 0x5B, 0xE2, 0x82, 0xAC] ∧
    tokensOf [0x40, 0x5B, 0xE2, 0x82, 0xAC] =
      some [⟨0, 1, .name_attr_delim⟩, ⟨1, 1, .symbol_square⟩, ⟨2, 1, .error⟩, ⟨3, 1, .error⟩, ⟨4, 1, .error⟩] ∧
    ¬ IsUtf8 (([0x40, 0x5B, 0xE2, 0x82, 0xAC].drop 2).take 1) := by
  exact ⟨⟨[0x40, 0x5B, 0x20AC], by simp [IsScalar], by decide +kernel⟩, by decide +kernel,
    not_isUtf8_one (by decide)⟩

end Ulight.Kotlin
