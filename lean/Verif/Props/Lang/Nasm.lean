import Verif.Hl.Parts
import Verif.Hl.Whole
import Verif.Hl.Words
import Verif.Lang.Nasm
import Verif.Spec.Lang.Nasm

/-!
# NASM: every token says something true about its text
-/

namespace Ulight.Nasm

open Spec Spec.Nasm Utf8

set_option maxRecDepth 2000

variable {env : HEnv} {s : HS IdKind}

theorem lower_eq : toLower = lower := by
  funext c
  revert c
  apply forall_byte
  decide +kernel

/-- A table that `std::ranges::binary_search` can search: sorted, and all in lower case. -/
def Searchable (table : List Bytes) : Prop :=
  table.Pairwise (fun a b => bytesLt b a = false) ∧ ∀ w ∈ table, w.map lower = w

instance (table : List Bytes) : Decidable (Searchable table) := inferInstanceAs (Decidable (_ ∧ _))

/-- The search finds a word in a table, ignoring case. -/
theorem binarySearch_iff {table : List Bytes} (h : Searchable table) (w : Bytes) :
    binarySearch table w = true ↔ Among table w := by
  obtain ⟨hs, hl⟩ := h
  have key : ∀ x ∈ table, (Ascii.compareToLower x w == .lt) = bytesLt x (w.map lower) := by
    intro x hx
    have h := (Ascii.C19_compare x w).2.1
    rw [lower_eq, hl x hx] at h
    rw [Bool.eq_iff_iff, ← h]
    simp
  have key' : ∀ x ∈ table, (Ascii.compareToLower w x == .lt) = bytesLt (w.map lower) x := by
    intro x hx
    have h := (Ascii.C19_compare w x).2.1
    rw [lower_eq, hl x hx] at h
    rw [Bool.eq_iff_iff, ← h]
    simp
  have hp : ∀ i j (hi : i < table.length) (hj : j < table.length), i < j → bytesLt table[j] table[i] = false :=
    fun i j hi hj hij => List.pairwise_iff_getElem.mp hs i j hi hj hij
  have hpart : ∀ i j (hi : i < table.length) (hj : j < table.length), i ≤ j →
      (Ascii.compareToLower table[j] w == .lt) = true → (Ascii.compareToLower table[i] w == .lt) = true := by
    intro i j hi hj hij h
    rw [key _ (List.getElem_mem hj)] at h
    rw [key _ (List.getElem_mem hi)]
    rcases Nat.lt_or_eq_of_le hij with h1 | h1
    · cases h2 : bytesLt table[i] table[j] with
      | true => exact bytesLt_trans h2 h
      | false => rw [bytesLt_total h2 (hp i j hi hj h1)]; exact h
    · subst h1; exact h
  obtain ⟨hr, hlt, hge⟩ := lowerBound_spec (fun x => Ascii.compareToLower x w == .lt) table hpart
  unfold binarySearch Among
  generalize lowerBound (fun x => Ascii.compareToLower x w == .lt) table = r at *
  constructor
  · intro h
    split at h
    · rename_i x hx
      obtain ⟨hi, rfl⟩ := List.getElem?_eq_some_iff.1 hx
      have hm := List.getElem_mem hi
      have h1 := hge r hi (Nat.le_refl _)
      rw [key _ hm] at h1
      rw [key' _ hm] at h
      rw [← bytesLt_total h1 (by simpa using h)]
      exact hm
    · cases h
  · intro h
    obtain ⟨i, hi, e⟩ := List.getElem_of_mem h
    have hri : r ≤ i := by
      rcases Nat.lt_or_ge i r with h1 | h1
      · have := hlt i hi h1
        rw [key _ (List.getElem_mem hi), e, bytesLt_irrefl] at this
        cases this
      · exact h1
    have hrl : r < table.length := by omega
    have h1 := hge r hrl (Nat.le_refl _)
    rw [key _ (List.getElem_mem hrl)] at h1
    rw [List.getElem?_eq_getElem hrl]
    simp only
    rw [key' _ (List.getElem_mem hrl)]
    rcases Nat.lt_or_eq_of_le hri with h2 | h2
    · have := hp r i hrl hi h2
      rw [e] at this
      rw [this]
      rfl
    · subst h2
      rw [e, bytesLt_irrefl]
      rfl

theorem types_searchable : Searchable Nasm.types := by decide +kernel
theorem operatorKeywords_searchable : Searchable operatorKeywords := by decide +kernel
theorem registers_searchable : Searchable Nasm.registers := by decide +kernel
theorem labelInstructions_searchable : Searchable labelInstructions := by decide +kernel

/-- The tables have the words of the specification. -/
theorem among_congr {a b : List Bytes} (h : sameWords a b = true) (w : Bytes) : Among a w ↔ Among b w :=
  sameWords_iff h _

theorem types_iff (w : Bytes) : binarySearch Nasm.types w = true ↔ Among Spec.Nasm.types w :=
  (binarySearch_iff types_searchable w).trans (among_congr (by decide +kernel) w)

theorem registers_iff (w : Bytes) : binarySearch Nasm.registers w = true ↔ Among Spec.Nasm.registers w :=
  (binarySearch_iff registers_searchable w).trans (among_congr (by decide +kernel) w)

theorem jumps_iff (w : Bytes) : binarySearch labelInstructions w = true ↔ Among jumps w :=
  (binarySearch_iff labelInstructions_searchable w).trans (among_congr (by decide +kernel) w)
theorem pseudoInstructions_searchable : Searchable pseudoInstructions := by decide +kernel

theorem idStart_iff (c : UInt8) : isIdStart c = true ↔ IdStart c := by
  simp [isIdStart, IdStart, isAlpha_iff]

theorem id_iff (c : UInt8) : isId c = true ↔ IdChar c := by
  simp [isId, IdChar, isAlnum, isAlpha_iff, isDigit_iff, or_assoc]

theorem identifier_facts {t : Bytes} {c : UInt8} (h : t[0]? = some c) (hc : isIdStart c = true) :
    0 < matchIdentifier t ∧ matchIdentifier t ≤ t.length ∧ Id t (matchIdentifier t) := by
  match t, h with
  | a :: u, h =>
    simp at h
    subst h
    have hl := length_if_le (a :: u) isId 1 (by simp)
    have ha := length_if_longest (a :: u) isId IdChar id_iff 1 (by simp)
    have e : matchIdentifier (a :: u) = Ascii.length_if (a :: u) isId 1 := by
      simp [matchIdentifier, Ascii.length_if_head_tail, hc]
      rfl
    rw [e]
    exact ⟨hl.1, hl.2, hl.1, ⟨a, rfl, (idStart_iff a).1 hc⟩, ha⟩

theorem matchOperator_eq (t : Bytes) :
    matchOperator t = ((operators.reverse.find? (startsWith t ·)).map List.length).getD 0 := by
  match t with
  | [] => rfl
  | c :: t =>
    rw [find_tails c t operators (by decide +kernel)]
    by_cases hc : c ∈ b!"?:+-~!|&^></%"
    · simp only [List.mem_cons, List.not_mem_nil, or_false] at hc
      rcases hc with rfl | rfl | rfl | rfl | rfl | rfl | rfl | rfl | rfl | rfl | rfl | rfl | rfl
      all_goals simp only [matchOperator, operators, tailsOf]
      all_goals simp [startsWith_cons_cons, find_startsWith_cons, apply_ite (Option.map _), apply_ite (Option.getD · 0)]
      all_goals (rcases t with _ | ⟨a, _ | ⟨b, _⟩⟩ <;> simp [startsWith_cons_cons] <;> grind)
    · simp only [List.mem_cons, List.not_mem_nil, or_false, not_or] at hc
      have hc' := hc
      simp only [eq_comm (a := c)] at hc'
      simp [matchOperator, hc, tailsOf, hc', operators]

theorem matchOperator_facts (t : Bytes) :
    (0 < matchOperator t ∧ matchOperator t ≤ t.length ∧ Tok t (matchOperator t) .symbol_op) ∨
    (matchOperator t = 0 ∧ ∀ w ∈ operators, startsWith t w = false) := by
  rw [matchOperator_eq]
  rcases symbol_facts (tokens := operators.map fun w => (w, ())) (symbols := operators) (by decide +kernel)
    (by simp) t with ⟨w, _, h, _, h2, h3, h4, h5, h6⟩ | ⟨h1, h2⟩
  · left
    rw [h]
    have : ∀ w ∈ operators, 0 < w.length := by decide +kernel
    exact ⟨this w h2, h4, Tok.operator h6⟩
  · right
    rw [h1]
    exact ⟨rfl, h2⟩

theorem alnum_iff (c : UInt8) : (decide ((c!"_" : UInt8) = 0) || decide (c = c!"_") || isAlnum c) = true ↔ AlnumChar c := by
  simp [AlnumChar, isAlnum_iff]
  grind

theorem baseOfSuffix_iff (c : UInt8) (b : Nat) : baseOfSuffix c = b ∧ b ≠ 0 ↔ (lower c, b) ∈ suffixBases := by
  have h : ∀ c, (baseOfSuffix c = 0 ∨ (lower c, baseOfSuffix c) ∈ suffixBases) ∧
      ∀ e ∈ suffixBases, lower c = e.1 → baseOfSuffix c = e.2 ∧ e.2 ≠ 0 := by
    apply forall_byte
    decide +kernel
  constructor
  · rintro ⟨rfl, h0⟩
    exact (h c).1.resolve_left h0
  · intro hm
    exact (h c).2 _ hm rfl

theorem suffixDigit_iff {c : UInt8} (hc : AlnumChar c) {b : Nat} (hb : b ≤ 16) :
    ¬ suffixDigitValue c ≥ b ↔ DigitIn b c := by
  unfold suffixDigitValue DigitIn digitVal
  simp only [isUpper, isLower, UInt8.le_iff_toNat_le, Bool.and_eq_true, decide_eq_true_eq, ge_iff_le]
  rcases hc with (hc | hc) | hc | rfl
  · rw [if_neg (by simp; omega), if_pos (by simpa using hc), if_neg (by omega), if_pos (by omega)]
    simp
    omega
  · rw [if_pos (by simpa using hc), if_neg (by omega), if_neg (by omega), if_pos (by omega)]
    simp
    omega
  · unfold DecDigit at hc
    rw [if_neg (by simp; omega), if_neg (by simp; omega), if_pos (by omega)]
    simp
    omega
  · simp
    omega

theorem suffixErroneous_iff {b : Nat} (hb : b ≤ 16) (ds : Bytes) (hd : ∀ c ∈ ds, AlnumChar c) (prev : Option UInt8) :
    suffixErroneous b c!"_" prev ds = true ↔ ∃ c ∈ ds, ¬ DigitIn b c := by
  induction ds generalizing prev with
  | nil => simp [suffixErroneous]
  | cons c ds ih =>
    have h1 := suffixDigit_iff (hd c (by simp)) hb
    unfold suffixErroneous
    split
    · rename_i h
      simp only [true_iff]
      exact ⟨c, by simp, fun h' => h1.2 h' h⟩
    · rename_i h
      split
      · rename_i h2
        obtain ⟨_, rfl, _⟩ := h2
        have : ¬ suffixDigitValue c!"_" ≥ 16 := fun h3 => h (by omega)
        exact absurd this (by decide)
      · rw [ih (fun x hx => hd x (by simp [hx]))]
        simp [h1.1 h]

/-- What was matched when the base is a suffix. -/
theorem suffixNumber_facts (t : Bytes) : (matchSuffixNumber t determineSuffix c!"_").digits = 0 ∨
    ∃ n b e, matchSuffixNumber t determineSuffix c!"_" = ⟨n, 1, b, e⟩ ∧ 0 < n ∧ n + 1 ≤ t.length ∧ Suffixed t n b ∧
      (e = false → ∀ c ∈ t.take n, DigitIn b c) ∧
      (e = true → (∃ c, t[0]? = some c ∧ DecDigit c) ∧ ∃ c ∈ t.take n, ¬ DigitIn b c) := by
  have hl := length_if_zero_longest t _ AlnumChar alnum_iff
  have hle := (length_if_le t (fun c => decide ((c!"_" : UInt8) = 0) || decide (c = c!"_") || isAlnum c) 0 (by omega)).2
  unfold matchSuffixNumber
  generalize Ascii.length_if t _ = len at hl hle ⊢
  dsimp only
  split
  · exact Or.inl rfl
  rename_i h1
  obtain ⟨n, rfl⟩ : ∃ n, len = n + 1 := ⟨len - 1, by omega⟩
  have hn : n < t.length := by omega
  have hlast : (t.take (n + 1)).getLast? = some t[n] := by
    rw [List.getLast?_eq_getElem?, List.length_take, Nat.min_eq_left hle]
    simp [hn]
  unfold determineSuffix
  rw [hlast]
  dsimp only
  split
  · exact Or.inl rfl
  rename_i hb
  dsimp only
  rw [if_neg (by omega)]
  rw [Nat.add_sub_cancel, List.take_take, Nat.min_eq_left (by omega)]
  have hmem := (baseOfSuffix_iff t[n] _).1 ⟨rfl, hb⟩
  have hb16 : baseOfSuffix t[n] ≤ 16 := by
    unfold baseOfSuffix
    repeat' split
    all_goals omega
  have hsuf : Suffixed t n (baseOfSuffix t[n]) :=
    ⟨by omega, hl, t[n], List.getElem?_eq_getElem hn, hmem⟩
  have herr := suffixErroneous_iff hb16 (t.take n) (fun c hc => hl.1 c (by
    rw [List.take_add_one]
    exact List.mem_append_left _ hc)) none
  have hhead : (t.take (n + 1)).head? = t[0]? := by simp [List.head?_eq_getElem?]
  rw [hhead]
  split
  · exact Or.inl rfl
  rename_i h3
  refine Or.inr ⟨n, _, _, rfl, by omega, by omega, hsuf, ?_, ?_⟩
  · intro he c hc
    refine Classical.byContradiction fun hd => ?_
    rw [herr.2 ⟨c, hc, hd⟩] at he
    cases he
  · intro he
    refine ⟨?_, herr.1 he⟩
    rw [he] at h3
    have h0 : 0 < t.length := by omega
    rw [List.getElem?_eq_getElem h0] at h3 ⊢
    simp at h3
    exact ⟨_, rfl, (isDigit_iff _).1 h3⟩

theorem wp_digitsLoop_plain {sep : UInt8} {n : Nat} {ds : Bytes} (h : sep ∉ ds) :
    (HM.digitsLoop sep n ds : HM IdKind Unit) = HM.digitsIgnoreSeparator (n + ds.length) := by
  induction ds generalizing n with
  | nil => rfl
  | cons c ds ih =>
    simp at h
    unfold HM.digitsLoop
    rw [if_neg (fun e => h.1 e.symm), ih h.2]
    simp [Nat.add_comm, Nat.add_left_comm]

theorem pseudo_never (w : Bytes) (c : UInt8) (h : Among pseudoInstructions w) (hc : w.getLast? = some c) :
    (lower c, 16) ∉ suffixBases := by
  have : ∀ w ∈ pseudoInstructions, ∀ c ∈ w.getLast?, (c, 16) ∉ suffixBases := by decide +kernel
  refine this _ h _ ?_
  simp [List.getLast?_map, hc]

theorem expectSuffixedNumber_spec : ExpectsOr rules expectSuffixedNumber
    (fun s => (matchSuffixNumber s.rem determineSuffix c!"_").digits = 0) := by
  intro env s g
  unfold expectSuffixedNumber
  rw [wp_bind, wp_rem]
  dsimp only
  rcases suffixNumber_facts s.rem with h | ⟨n, b, e, h, h0, h1, h2, h3, h4⟩
  · rw [if_pos h]
    hm
  · rw [h]
    dsimp only
    rw [if_neg (by omega)]
    have hlen : (s.rem.take (n + 1)).length = n + 1 := by simp; omega
    have hlast : (s.rem.take (n + 1)).getLast? = s.rem[n]? := by
      rw [List.getLast?_eq_getElem?, hlen]
      simp
    obtain ⟨_, hl, c, hc, hs⟩ := h2
    split
    · rename_i hp
      obtain ⟨rfl, hp⟩ := hp
      exact absurd hs (pseudo_never _ c ((binarySearch_iff pseudoInstructions_searchable _).1 hp) (by rw [hlast, hc]))
    split
    · rename_i hp
      obtain ⟨rfl, hp⟩ := hp
      have ht : Tok s.rem (n + 1) .name_var :=
        Tok.numericRegister ⟨h0, hl, c, hc, hs⟩ ((registers_iff _).1 hp)
      rw [hlen]
      hm_bare
    split
    · rename_i he
      have ht : Tok s.rem (n + 1) .error := Tok.badSuffixed ⟨h0, hl, c, hc, hs⟩ (h4 he).1 (h4 he).2
      hm_bare
    · rename_i he
      have hd := h3 (by simpa using he)
      have ht : Tok s.rem n .number := Tok.digits ⟨h0, hl, c, hc, hs⟩ hd
      have hns : c!"_" ∉ s.rem.take n := by
        intro hm
        obtain ⟨v, hv, _⟩ := hd _ hm
        simp [digitVal] at hv
      have ht' : Tok (s.rem.drop n) 1 .number_decor := by
        refine Tok.suffix (c := c) ?_ hs ?_
        · obtain ⟨hi, rfl⟩ := List.getElem?_eq_some_iff.1 hc
          rw [List.drop_eq_getElem_cons hi]
          rfl
        · rw [List.getElem?_drop]
          exact hl.2
      unfold HM.highlightDigits
      rw [wp_bind, wp_bind, wp_hassert]
      refine ⟨rfl, ?_⟩
      rw [wp_bind, wp_rem, wp_bind, wp_hassert]
      refine ⟨by simp; omega, ?_⟩
      rw [wp_digitsLoop_plain hns]
      have e2 : 0 + (s.rem.take n).length = n := by simp; omega
      rw [e2]
      unfold HM.digitsIgnoreSeparator
      rw [if_pos (by omega)]
      hm_bare
      hm_at ht'

theorem expectCommonNumber_spec : ExpectsOr rules expectCommonNumber
    (fun s => (matchCommonNumber s.rem numberOptions).length = 0) := by
  intro env s g
  unfold expectCommonNumber
  hm
  · refine wp_number (R := rules) (N := numerals) (by simp [numerals]) ?_ (fun _ _ _ => Tok.number)
      (by assumption) (by assumption) ?_
    · constructor <;> simp [numberOptions, numerals]
    intros
    hm

theorem expectNumber_spec : ExpectsOr rules expectNumber
    (fun s => startsWith s.rem b!"_" = false → (matchCommonNumber s.rem numberOptions).length = 0) := by
  intro env s g
  unfold expectNumber
  hm

theorem number_digit {t : Bytes} (h : (matchCommonNumber t numberOptions).length = 0) :
    ∀ b, t[0]? = some b → ¬ DecDigit b := by
  intro b hb hd
  cases t with
  | nil => simp at hb
  | cons c t =>
    simp at hb
    subst hb
    exact number_ne_zero numberOptions ⟨by decide, by decide, by decide⟩ _ c t rfl
      ((isDigit_iff c).2 hd) h

theorem number_dollar {t : Bytes} (h : (matchCommonNumber t numberOptions).length = 0) : t[0]? ≠ some c!"$" := by
  intro hd
  match t, hd with
  | c :: t, hd =>
    simp at hd
    subst hd
    revert h
    simp only [matchCommonNumber, numberOptions, numSign, numPrefix, numFraction]
    simp [startsWith_cons_cons]

theorem matchEscape_facts {t : Bytes} (h : t[0]? = some c!"\\") :
    escapes.Bad t ∧ t.length = 1 ∧ (matchEscape t).length = 0 ∨
      EscapeFacts escapes t (matchEscape t) ∧ 0 < (matchEscape t).length := by
  match t, h with
  | [a], h =>
    refine Or.inl ⟨⟨h, fun m hm => ?_⟩, rfl, rfl⟩
    obtain ⟨c, u, e, _⟩ := hm
    have := congrArg List.length e
    simp at this
    omega
  | a :: b :: u, h =>
    right
    constructor
    · have := escape_facts (F := escapes) (t := a :: b :: u)
        (f := fun t => match t with | _ :: _ :: _ => matchEscape t | _ => ⟨1, true⟩) (by decide) ?_ ?_ (by decide) h
      · exact this
      · simp [escapes, matchEscape, EscapeForm.run]
      · intro c hc u
        simp [escapes] at hc
        have : ∀ c : UInt8, ¬ (c = c!"0" ∨ c = c!"1" ∨ c = c!"2" ∨ c = c!"3" ∨ c = c!"4" ∨ c = c!"5" ∨ c = c!"6" ∨
          c = c!"7") → ¬ (c!"0" ≤ c ∧ c ≤ c!"7") := by
          apply forall_byte
          decide +kernel
        have := this c (by simp [hc])
        simp only [matchEscape]
        simp [hc, this]
    · simp at h
      subst h
      simp only [matchEscape]
      (repeat' split) <;> simp_all [matchCommonEscapeAt]

theorem consumeEscape_spec (g : Good rules env s) (h : s.rem[0]? = some c!"\\") :
    wp consumeEscape (fun _ s' => Moved rules env s s' ∧ s.idx < s'.idx) env s := by
  unfold consumeEscape
  have hp : 0 < s.rem.length := (List.getElem?_eq_some_iff.1 h).1
  rcases matchEscape_facts h with ⟨h1, h2, h3⟩ | ⟨⟨h1, h2, h3⟩, h4⟩
  · have hb : Tok s.rem 1 .error := Tok.badEscape h1
    rw [wp_bind, wp_rem, if_neg (by omega)]
    hm_bare
  · hm
    split
    · exact Tok.badEscape (h3 (by assumption))
    · rename_i h
      exact Tok.escape (h2 (Bool.eq_false_iff.2 h))

theorem backquoteLoop_spec {fuel : Nat} (g : Good rules env s) (hf : s.rem.length < fuel) :
    wp (HM.loop fuel backquoteStep 0) (fun _ s' => Moved rules env s s') env s := by
  refine wp_scan (R := rules) (fun n s' => Scanned b!"`" (· ∈ [0x0A, 0x0B, 0x0D, c!"\\"]) s'.rem n) ?_ g (Nat.zero_le _) (.zero _ _ _) (by omega)
  intro n s1 g1 h1 h2 h3 h4
  unfold backquoteStep
  hm
  · rename_i c hc _ _ hq
    exact fun _ => Tok.backquoted (h4.atStop hc (by rcases hq with rfl | rfl | rfl <;> simp))
  · rename_i c hc _ _ _ _ _ hq
    exact fun _ => Tok.backquoted (h4.atQuote (by rw [startsWith_drop_one hc]; simp [hq]) (by assumption))
  · exact .zero _ _ _
  · rename_i c hc _ _ _ _ _ _ hq
    exact fun _ => Tok.backquoted (h4.atStop hc (by simp [hq]))
  · rename_i c hc _ _ _ _ _ _ _
    exact h4.succ hc (by rw [startsWith_drop_one hc]; simp_all) (by simp; grind)

theorem quote_tok {t : Bytes} {q : UInt8} (h : startsWith t [q] = true)
    (hq : q = c!"\"" ∨ q = c!"'" ∨ q = c!"`") : Tok t 1 .string_delim := by
  obtain ⟨u, rfl⟩ := startsWith_iff.1 h
  refine Tok.quote ?_
  rcases hq with rfl | rfl | rfl <;> simp

theorem consumeVerbatim_spec {q : UInt8} (g : Good rules env s) (hq : q = c!"'" ∨ q = c!"\"") :
    wp (consumeVerbatim q) (fun _ s' => Moved rules env s s') env s := by
  unfold consumeVerbatim
  have hl := length_if_not_zero_longest s.rem (fun c => c = 0x0A || c = 0x0D || c = q)
    (fun c => c ≠ 0x0A ∧ c ≠ 0x0D ∧ c ≠ q) (by simp [and_assoc])
  have hs := Tok.string hq hl
  have hle := length_if_not_le s.rem (fun c => c = 0x0A || c = 0x0D || c = q) 0 (by omega)
  rw [wp_bind, wp_rem, wp_bind]
  generalize Ascii.length_if_not s.rem _ = n at hl hs hle ⊢
  refine wp_step_emitAdvIf g hle.2 (by decide) (fun _ => hs) fun s1 g1 l1 e1 i1 _ => ?_
  rw [wp_bind, wp_rem]
  cases hh : startsWith s1.rem [q] with
  | false => hm
  | true =>
    have ht := quote_tok hh (by grind)
    have := startsWith_length hh
    hm

theorem consumeString_spec {q : UInt8} (g : Good rules env s) (h : s.rem[0]? = some q)
    (hq : q = c!"\"" ∨ q = c!"'" ∨ q = c!"`") :
    wp (consumeString q) (fun _ s' => Good rules env s' ∧ s.idx < s'.idx) env s := by
  unfold consumeString
  have hh : startsWith s.rem [q] = true := startsWith_drop_iff (n := 0).2 h
  have ht := quote_tok hh hq
  have hp : 0 < s.rem.length := (List.getElem?_eq_some_iff.1 h).1
  hm_bare
  · refine wp_mono (backquoteLoop_spec (by assumption) (by hm_len)) ?_
    intro _ s' m
    hm_hyp m
    hm

theorem seg_iff (w : Bytes) : Ascii.equalsIgnoreCase w b!"seg" = true ∨ Ascii.equalsIgnoreCase w b!"wrt" = true ↔
    Among [b!"seg", b!"wrt"] w := by
  rw [(Ascii.C19_ignore_case w b!"seg").1, (Ascii.C19_ignore_case w b!"wrt").1, lower_eq]
  unfold Among
  rw [List.mem_cons, List.mem_singleton]
  exact Iff.rfl

theorem consumeIdentifier_spec (g : Good rules env s) {c : UInt8} (h : s.rem[0]? = some c) (hc : isIdStart c = true)
    (hd : c ≠ c!"$") :
    wp consumeIdentifier (fun _ s' => Good rules env s' ∧ s.idx < s'.idx) env s := by
  unfold consumeIdentifier
  obtain ⟨h1, h2, h3⟩ := identifier_facts h hc
  rw [wp_bind, wp_rem]
  dsimp only
  generalize matchIdentifier s.rem = n at h1 h2 h3
  have hdot : startsWith s.rem b!"." = true ↔ s.rem[0]? = some c!"." := startsWith_drop_iff (n := 0)
  have hdol : startsWith (s.rem.take n) b!"$" = false := by
    cases hh : startsWith (s.rem.take n) b!"$" with
    | false => rfl
    | true =>
      have := (startsWith_drop_iff (n := 0)).1 hh
      rw [List.getElem?_take_of_lt h1, h] at this
      exact absurd (Option.some.inj this) hd
  have hop : binarySearch operatorKeywords (s.rem.take n) = true ↔ Among [b!"seg", b!"wrt"] (s.rem.take n) :=
    binarySearch_iff operatorKeywords_searchable _
  simp only [hdot, hdol]
  hm_bare
  · rename_i h
    exact Tok.operatorWord h3 ((seg_iff _).1 h)
  · exact Tok.label h3 (by assumption)
  · exact Tok.localLabel h3 (by assumption)
  · rename_i h4 h5 h6
    exact Tok.type ⟨h3, h4, h5⟩ ((types_iff _).1 h6)
  · rename_i h6
    exact Tok.operatorWord h3 (hop.1 h6)
  · rename_i h4 h5 _ _ h6
    exact Tok.register ⟨h3, h4, h5⟩ ((registers_iff _).1 h6)
  · rename_i h4 h5 _ _ _ h6
    exact Tok.jump ⟨h3, h4, h5⟩ ((jumps_iff _).1 h6)
  · cases s.ext <;> decide
  · rename_i h4 h5 h6 h7 h8 h9 _
    refine Tok.word ⟨h3, h4, h5⟩ ?_ (by cases s.ext <;> simp [IdKind.type])
    simp only [List.mem_cons, List.not_mem_nil, or_false, forall_eq_or_imp, forall_eq]
    rw [← types_iff, ← registers_iff,
      ← jumps_iff, ← hop]
    simp [h6, h7, h8, h9]

theorem line_gap {t u : Bytes} {n : Nat} (h : t = u.drop (matchCrlfLine u).content) (hn : n = (matchCrlfLine u).terminator) :
    rules.gap t n := by
  subst h hn
  intro c hc
  have := matchCrlfLine_terminator _ c hc
  rcases this with rfl | rfl <;> simp

theorem consumeComment_spec (g : Good rules env s) (h : startsWith s.rem b!";" = true) :
    wp consumeComment (fun _ s' => Good rules env s' ∧ s.idx < s'.idx) env s := by
  obtain ⟨u, hu⟩ := startsWith_iff.1 h
  unfold consumeComment
  hm
  · rename_i s1 _ _ _ _ _ s2 _ _ _ h1 _
    exact line_gap (by assumption) rfl
  · exact fun _ => Tok.comment (matchCrlfLine_content _)

theorem consumeMacro_spec (g : Good rules env s) (h : startsWith s.rem b!"%" = true) :
    wp consumeMacro (fun _ s' => Good rules env s' ∧ s.idx < s'.idx) env s := by
  obtain ⟨u, hu⟩ := startsWith_iff.1 h
  unfold consumeMacro
  have hl := matchCrlfLine_le (s.rem.drop 1)
  have hlen : s.rem.length = u.length + 1 := by simp [hu]
  rw [List.length_drop] at hl
  hm
  · refine line_gap (u := s.rem.drop 1) ?_ rfl
    rw [List.drop_drop, Nat.add_comm]
    assumption
  · refine Tok.directive (by simp [hu]) ?_
    have := matchCrlfLine_content (s.rem.drop 1)
    rw [hu] at this ⊢
    refine ⟨?_, ?_⟩
    · have h1 := this.1
      simp at h1 ⊢
      refine ⟨by simp [InLine], by simpa [InLine] using h1⟩
    · have h2 := this.2
      simpa [InLine] using h2

theorem not_underscore {t : Bytes} {c : UInt8} (h : t[0]? = some c) (hc : c ≠ c!"_") : startsWith t b!"_" = false := by
  match t, h with
  | d :: t, h =>
    simp at h
    subst h
    simp [startsWith_cons_cons]
    grind

theorem consumeOther_spec (g : Good rules env s) {c : UInt8} (h : s.rem[0]? = some c) (hd : isDigit c = false)
    (hc : c ∉ b!" \t\r\n()[]{},;%'\"`") :
    wp (consumeOther c) (fun _ s' => Good rules env s' ∧ s.idx < s'.idx) env s := by
  unfold consumeOther
  rcases matchOperator_facts s.rem with ⟨h1, h2, h3⟩ | ⟨h1, h2⟩
  · rw [wp_bind, wp_rem, if_pos (by omega)]
    hm
  · rw [wp_bind, wp_rem, if_neg (by omega)]
    hm_bare
    · rename_i hn _ _
      rintro rfl
      exact number_dollar (hn (not_underscore h (by decide))) h
    · have : s.rem.take 1 = [c] := by
        match s.rem, h with
        | d :: t, h => simp at h; simp [h]
      refine Tok.unknown this ?_ ?_ ?_ hc
      · rw [← idStart_iff]; simp [*]
      · rw [← isDigit_iff]; simp [*]
      · intro w hw
        rw [occursAt_zero, h2 w hw]
        simp

theorem consumeAnything_spec (g : Good rules env s) (h : s.rem ≠ []) :
    wp consumeAnything (fun _ s' => Good rules env s' ∧ s.idx < s'.idx) env s := by
  unfold consumeAnything
  rw [wp_bind, wp_rem]
  cases hr : s.rem with
  | nil => exact absurd hr h
  | cons c t =>
    have h0 : s.rem[0]? = some c := by simp [hr]
    have h1 : s.rem.take 1 = [c] := by simp [hr]
    have hno : isDigit c = true → (startsWith s.rem [95] = false → (matchCommonNumber s.rem numberOptions).length = 0) →
        False := by
      intro hd hn
      refine number_digit (hn (not_underscore h0 ?_)) c h0 ((isDigit_iff c).1 hd)
      rintro rfl
      revert hd
      decide
    dsimp only
    hm_bare
    · intro d hd
      rw [h1] at hd
      grind
    · rename_i hc s' _ _ e _ _
      intro d hd
      rw [e, h1] at hd
      grind
    · exact Tok.parens (by grind)
    · exact Tok.square (by grind)
    · exact Tok.brace (by grind)
    · exact Tok.comma (by grind)

theorem highlight_tiles (debug : Bool) (opts : Opts) (src : Bytes) :
    ∃ es, highlight debug opts src = .ok (true, es) ∧
      Tiles rules src src.length (es.map Emit.token) := by
  obtain ⟨good, es, h1, rfl, h2⟩ := run_of_wp (m := run) (ext := IdKind.instruction) (R := rules) (debug := debug)
    (opts := opts) (src := src) (P := fun b => b = true) (by
      intro s g hr hi _
      unfold run
      hm
      refine wp_while_moved (R := rules) (fun _ => True) ?_ g trivial (by omega) ?_
      · intro s1 g1 _ _ _ _
        hm
      · intros
        hm)
  exact ⟨es, h1, h2⟩

/-- Every token of a NASM file is what its type says, and text without a token is whitespace. -/
theorem C46_nasm_tokens (debug : Bool) (opts : Opts) (src : Bytes) :
    ∃ es, highlight debug opts src = .ok (true, es) ∧
      Tiles rules src src.length (es.map Emit.token) :=
  highlight_tiles debug opts src

/-- What is highlighted in a debug build. -/
def tokensOf (src : Bytes) : Option (List Token) :=
  (highlight true {} src).toOption.map (fun r => r.2.map Emit.token)

example : tokensOf b!"mov eax, 0x1F ; hi" =
    some [⟨0, 3, .name_instruction⟩, ⟨4, 3, .name_var⟩, ⟨7, 1, .symbol_punc⟩, ⟨9, 2, .number_decor⟩, ⟨11, 2, .number⟩,
      ⟨14, 1, .comment_delim⟩, ⟨15, 3, .comment⟩] := by decide +kernel

example : tokensOf b!"`a\\n\\z`\n%if x\nbyte $1 dh 0ffh" =
    some [⟨0, 1, .string_delim⟩, ⟨1, 1, .string⟩, ⟨2, 2, .string_escape⟩, ⟨4, 2, .error⟩, ⟨6, 1, .string_delim⟩,
      ⟨8, 5, .name_macro⟩, ⟨14, 4, .keyword_type⟩, ⟨19, 1, .number_decor⟩, ⟨20, 1, .number⟩,
      ⟨22, 2, .name_var⟩, ⟨25, 3, .number⟩, ⟨28, 1, .number_decor⟩] := by decide +kernel

/-- Valid programs are highlighted as if they were something else: the use of a local label is shown as its
declaration, `db` is an ordinary instruction, `$` is an error, and so are multiplication, digit separators before a
suffix and the escape sequence `\0`.  An unterminated string is highlighted as code. -/
theorem C46_differences :
    tokensOf b!"jmp .loop" = some [⟨0, 3, .name_instruction⟩, ⟨4, 5, .name_label_decl⟩] ∧
    tokensOf b!"db 1" = some [⟨0, 2, .name_instruction⟩, ⟨3, 1, .number⟩] ∧
    tokensOf b!"$foo $$ $" = some [⟨0, 1, .number_decor⟩, ⟨1, 1, .number⟩, ⟨2, 2, .name_instruction⟩, ⟨5, 1, .error⟩,
      ⟨6, 1, .error⟩, ⟨8, 1, .error⟩] ∧
    tokensOf b!"a*b" = some [⟨0, 1, .name_instruction⟩, ⟨1, 1, .error⟩, ⟨2, 1, .name_var⟩] ∧
    tokensOf b!"0f_fh" = some [⟨0, 5, .error⟩] ∧
    tokensOf b!"`\\0`" = some [⟨0, 1, .string_delim⟩, ⟨1, 2, .error⟩, ⟨3, 1, .string_delim⟩] ∧
    tokensOf b!"`ab" = some [⟨0, 1, .string_delim⟩, ⟨1, 2, .name_instruction⟩] ∧
    tokensOf b!"jz a b" = some [⟨0, 2, .name_instruction⟩, ⟨3, 1, .name_label⟩, ⟨5, 1, .name_label⟩] := by
  refine ⟨by decide +kernel, by decide +kernel, by decide +kernel, by decide +kernel, by decide +kernel,
    by decide +kernel, by decide +kernel, by decide +kernel⟩

/-- The tables are searched correctly: types, registers and jumps are found in upper and lower case, and nothing
else is. -/
theorem C33_nasm (w : Bytes) :
    (binarySearch Nasm.types w = true ↔ Among Spec.Nasm.types w) ∧
    (binarySearch Nasm.registers w = true ↔ Among Spec.Nasm.registers w) ∧
    (binarySearch operatorKeywords w = true ↔ Among [b!"seg", b!"wrt"] w) ∧
    (binarySearch labelInstructions w = true ↔ Among jumps w) ∧
    (binarySearch pseudoInstructions w = true ↔
      Among (wordsOf b!"db dw dd dq dt do dy dz resb resw resd resq rest reso resy resz incbin equ times") w) :=
  ⟨types_iff w, registers_iff w, binarySearch_iff operatorKeywords_searchable w, jumps_iff w,
    (binarySearch_iff pseudoInstructions_searchable w).trans (among_congr (by decide +kernel) w)⟩

example : Among Spec.Nasm.registers b!"RaX" ∧ ¬ Among Spec.Nasm.registers b!"rax1" := by
  unfold Among
  decide +kernel

/-- Registers 30 are not highlighted as registers, but registers 32, which do not exist, are.  The instruction `jns`
is not known to jump to a label. -/
theorem C33_nasm_differences :
    (∀ w ∈ machineRegisters, binarySearch Nasm.registers w = true ↔ w ∉ [b!"xmm30", b!"ymm30", b!"zmm30"]) ∧
    (∀ w ∈ [b!"xmm32", b!"ymm32", b!"zmm32"], w ∉ machineRegisters ∧ binarySearch Nasm.registers w = true) ∧
    (∀ w ∈ machineJumps, binarySearch labelInstructions w = true ↔ w ≠ b!"jns") ∧
    tokensOf b!"movups xmm29, xmm30" = some [⟨0, 6, .name_instruction⟩, ⟨7, 5, .name_var⟩, ⟨12, 1, .symbol_punc⟩,
      ⟨14, 5, .name_var⟩] ∧
    tokensOf b!"xmm30" = some [⟨0, 5, .name_instruction⟩] ∧ tokensOf b!"xmm31" = some [⟨0, 5, .name_var⟩] ∧
    tokensOf b!"js a" = some [⟨0, 2, .name_instruction⟩, ⟨3, 1, .name_label⟩] ∧
    tokensOf b!"jns a" = some [⟨0, 3, .name_instruction⟩, ⟨4, 1, .name_var⟩] := by
  refine ⟨by decide +kernel, by decide +kernel, by decide +kernel, by decide +kernel, by decide +kernel,
    by decide +kernel, by decide +kernel, by decide +kernel⟩

theorem no_pseudo {t : Bytes} {n : Nat} {ty : HT} (h : Tok t n ty) : ty ≠ .name_instruction_pseudo := by
  rintro rfl
  generalize hty : HT.name_instruction_pseudo = ty at h
  cases h <;> first | (cases hty; done) | (subst hty; simp_all; done) | skip
  rename_i h
  cases h <;> cases hty

/-- A pseudo-instruction is never recognised: no token has that type. -/
theorem C46_no_pseudo (debug : Bool) (opts : Opts) (src : Bytes) :
    ∃ es, highlight debug opts src = .ok (true, es) ∧ ∀ e ∈ es, e.token.ty ≠ .name_instruction_pseudo := by
  obtain ⟨es, h1, h2⟩ := highlight_tiles debug opts src
  refine ⟨es, h1, fun e he hp => ?_⟩
  have h := h2.tok_rule _ (List.mem_map_of_mem he)
  rw [hp] at h
  exact no_pseudo h rfl

/-- A character outside of ASCII is reported byte by byte. -/
theorem C31_nasm_splits : IsUtf8 [0xC3, 0xA9] ∧ tokensOf [0xC3, 0xA9] = some [⟨0, 1, .error⟩, ⟨1, 1, .error⟩] ∧
    ¬ IsUtf8 ([0xC3, 0xA9].take 1) :=
  ⟨⟨[0xE9], by simp [IsScalar], by decide +kernel⟩, by decide +kernel, not_isUtf8_one (by decide)⟩

end Ulight.Nasm
