import Verif.Hl.Match
import Verif.Hl.Parts
import Verif.Lang.Yaml
import Verif.Spec.Lang.Yaml

/-!
# The matching functions for YAML
-/

namespace Ulight

open Spec

namespace Yaml

open Spec.Yaml

/-! ## Lines -/

theorem matchLineBreak_ne {s : Bytes} : matchLineBreak s ≠ 0 ↔ ∃ c t, s = c :: t ∧ ¬ InLine c := by
  unfold matchLineBreak
  cases s with
  | nil => simp [startsWith]
  | cons c t =>
    unfold InLine
    split
    · rename_i h
      obtain ⟨u, h⟩ := startsWith_iff.1 h
      simp at h
      simp [h]
    · simp
      grind

theorem matchLineBreak_eq {s : Bytes} : matchLineBreak s = 0 ↔ ∀ c, s.head? = some c → InLine c := by
  constructor
  · intro h c hc
    apply Classical.byContradiction
    intro hn
    cases s with
    | nil => simp at hc
    | cons d t =>
      simp at hc
      subst hc
      exact matchLineBreak_ne.2 ⟨_, _, rfl, hn⟩ h
  · intro h
    apply Classical.byContradiction
    intro hn
    obtain ⟨c, t, rfl, hc⟩ := matchLineBreak_ne.1 hn
    exact hc (h c rfl)

theorem matchLineBreak_le (s : Bytes) : matchLineBreak s ≤ s.length := by
  unfold matchLineBreak
  split
  · rename_i h
    exact (startsWith_facts h 2 rfl).1
  · cases s with
    | nil => simp
    | cons c t => split <;> simp

theorem matchLineBreak_white (s : Bytes) : ∀ c ∈ s.take (matchLineBreak s), c ∈ b!"\r\n" := by
  unfold matchLineBreak
  split
  · rename_i h
    rw [(startsWith_facts h 2 rfl).2]
    simp
  · cases s with
    | nil => simp
    | cons c t =>
      split
      · rename_i h
        simp at h
        simp
        grind
      · simp

theorem lineLength_eq (s : Bytes) : lineLength s = (s.takeWhile fun c => c != 0x0A && c != 0x0D).length := by
  induction s with
  | nil => rfl
  | cons c t ih =>
    unfold lineLength
    rw [List.takeWhile_cons]
    by_cases h : matchLineBreak (c :: t) = 0
    · have := matchLineBreak_eq.1 h c rfl
      rw [if_neg (by simpa using h), if_pos (by simpa [InLine] using this), ih]
      simp
    · obtain ⟨d, u, e, hd⟩ := matchLineBreak_ne.1 h
      simp at e
      obtain ⟨rfl, rfl⟩ := e
      rw [if_pos (by simpa using h), if_neg (by intro h'; exact hd (by simpa [InLine] using h'))]
      rfl

theorem lineLength_longest (s : Bytes) : Longest InLine s (lineLength s) := by
  rw [lineLength_eq]
  refine takeWhile_longest _ _ ?_ s
  intro c
  simp [InLine]

theorem lineLength_le (s : Bytes) : lineLength s ≤ s.length := by
  rw [lineLength_eq]
  exact (List.takeWhile_prefix _).length_le

theorem separates_iff {s : Bytes} : separates s = true ↔ Separates s := by
  unfold separates Separates
  cases s with
  | nil => simp
  | cons c t =>
    have h1 : matchLineBreak (c :: t) ≠ 0 ↔ ¬ InLine c := by
      rw [matchLineBreak_ne]
      simp
    simp only [ne_eq, decide_not, Bool.or_eq_true, decide_eq_true_eq, Bool.not_eq_true', decide_eq_false_iff_not]
    rw [← ne_eq, h1]
    unfold InLine
    simp
    grind

theorem spaces_of (s : Bytes) (n : Nat) (h : n ≤ currentIndent s) : s.take n = List.replicate n c!" " := by
  have hl : currentIndent s ≤ s.length := (length_if_le s _ 0 (by omega)).2
  have h1 := (length_if_zero_longest s (· == c!" ") (· = c!" ") (by simp)).1
  rw [List.eq_replicate_iff]
  refine ⟨by rw [List.length_take]; omega, ?_⟩
  intro c hc
  refine h1 c ?_
  unfold currentIndent at h
  exact (List.take_subset_take_left s h) hc

theorem currentIndent_le (s : Bytes) : currentIndent s ≤ s.length := (length_if_le s _ 0 (by omega)).2

theorem currentIndent_solid {c : UInt8} {t : Bytes} (h : c ≠ c!" ") : currentIndent (c :: t) = 0 := by
  have h1 := length_if_zero_longest (c :: t) (· == c!" ") (· = c!" ") (by simp)
  unfold currentIndent
  apply Classical.byContradiction
  intro hn
  apply h
  exact h1.1 c (by
    match hk : Ascii.length_if (c :: t) (fun x => x == c!" "), hn with
    | k + 1, _ => simp)

/-! ## Escape sequences -/

theorem matchEscape_facts {t : Bytes} (h : t[0]? = some c!"\\") :
    EscapeFacts escapes t (matchEscape t) ∧ 0 < (matchEscape t).length := by
  constructor
  · refine escape_facts (by decide) ?_ ?_ (by decide) h
    · simp [escapes, matchEscape, EscapeForm.run]
      (repeat' constructor) <;> (intro u hu; omega)
    · intro c hc u
      simp [escapes] at hc
      simp only [matchEscape]
      simp [hc]
  · match t, h with
    | [a], _ => simp [matchEscape]
    | a :: b :: u, h =>
      simp only [matchEscape]
      (repeat' split) <;> simp_all [matchCommonEscapeAt]

theorem matchEscape_bad {t : Bytes} (h : t[0]? = some c!"\\") (he : (matchEscape t).erroneous = true) :
    BadLength t (matchEscape t).length := by
  have fixed : ∀ (x : Bytes) k, (matchCommonEscape.fixed x k).length = min k x.length := by
    intro x k
    unfold matchCommonEscape.fixed
    dsimp only
    split <;> simp
  match t, h with
  | [a], h =>
    left
    simp [matchEscape]
  | a :: c :: u, h =>
    simp at h
    subst h
    unfold matchEscape at he ⊢
    simp only [List.length_cons, Nat.not_lt.2 (Nat.le_add_left 2 u.length), decide_false, Bool.false_or,
      List.getElem?_cons_zero, ne_eq, not_true_eq_false, Bool.false_eq_true, if_false, List.getElem?_cons_succ] at he ⊢
    split
    · rename_i h1
      rw [if_pos h1] at he
      simp at he
    · rename_i h1
      rw [if_neg h1] at he
      split
      · rename_i h2
        right
        exact ⟨c, 2, by simp [h2], rfl, by simp [matchCommonEscapeAt, matchCommonEscape, fixed]; omega⟩
      · split
        · rename_i h2
          right
          exact ⟨c, 4, by simp [h2], rfl, by simp [matchCommonEscapeAt, matchCommonEscape, fixed]; omega⟩
        · split
          · rename_i h2
            right
            exact ⟨c, 8, by simp [h2], rfl, by simp [matchCommonEscapeAt, matchCommonEscape, fixed]; omega⟩
          · rename_i h2 h3 h4
            rw [if_neg h2, if_neg h3, if_neg h4] at he
            split
            · rename_i h5
              rw [if_pos h5] at he
              simp at h5
              rcases h5 with rfl | rfl
              · simp [matchCommonEscapeAt, matchCommonEscape] at he
                grind
              · simp [matchCommonEscapeAt, matchCommonEscape] at he
            · left; rfl

/-! ## Words -/

theorem lt_append : ∀ {x y : Bytes} (t : Bytes), bytesLt x y = true → startsWith y x = false →
    bytesLt (x ++ t) y = true
  | [], _, _, _, h => by simp [startsWith] at h
  | _ :: _, [], _, h, _ => by simp [bytesLt] at h
  | a :: x, b :: y, t, h, h' => by
    simp only [bytesLt] at h
    simp only [List.cons_append, bytesLt]
    split at h
    · rename_i h1
      rw [if_pos h1]
    · rename_i h1
      rw [if_neg h1]
      split at h
      · simp at h
      · rename_i h2
        rw [if_neg h2]
        refine lt_append t h ?_
        rw [startsWith_cons_cons] at h'
        have : a = b := by
          rw [UInt8.lt_iff_toNat_lt] at h1 h2
          exact UInt8.toNat_inj.1 (by omega)
        simpa [this] using h'

theorem lt_append_self (x : Bytes) {t : Bytes} (h : t ≠ []) : bytesLt x (x ++ t) = true := by
  induction x with
  | nil =>
    cases t with
    | nil => simp at h
    | cons a t => rfl
  | cons a x ih =>
    simp only [List.cons_append, bytesLt]
    rw [if_neg (by rw [UInt8.lt_iff_toNat_lt]; omega), if_neg (by rw [UInt8.lt_iff_toNat_lt]; omega)]
    exact ih

theorem words_sorted : words.Pairwise (fun x y => bytesLt x.1 y.1 = true) := by decide +kernel

theorem words_prefixFree : ∀ x ∈ words, ∀ y ∈ words, startsWith y.1 x.1 = true → x = y := by decide +kernel

theorem words_mem : ∀ x, x ∈ words ↔ x ∈ Spec.Yaml.words := by
  have h : (∀ x ∈ words, x ∈ Spec.Yaml.words) ∧ ∀ x ∈ Spec.Yaml.words, x ∈ words := by decide +kernel
  exact fun x => ⟨h.1 x, h.2 x⟩

theorem matchWord_some {s : Bytes} {x : Bytes × HT} (h : matchWord s = some x) :
    x ∈ words ∧ startsWith s x.1 = true := by
  unfold matchWord at h
  dsimp only at h
  split at h
  · rename_i y hy
    simp at h
    subst h
    rw [Option.filter_eq_some_iff] at hy
    exact ⟨List.mem_of_getElem? hy.1, hy.2⟩
  · split at h
    · simp at h
    · rw [Option.filter_eq_some_iff] at h
      exact ⟨List.mem_of_getElem? h.1, h.2⟩

/-- `match_plain_identifier` finds the word at the beginning of the string. -/
theorem matchWord_complete {x : Bytes × HT} (h : x ∈ words) (t : Bytes) : matchWord (x.1 ++ t) = some x := by
  obtain ⟨i, hi, rfl⟩ := List.getElem_of_mem h
  have sorted := words_sorted
  rw [List.pairwise_iff_getElem] at sorted
  have part := lowerBound_spec (fun x : Bytes × HT => bytesLt x.1 (words[i].1 ++ t)) words (by
    intro a b ha hb hab hl
    rcases Nat.lt_or_ge a b with hlt | hge
    · exact bytesLt_trans (sorted a b ha hb hlt) hl
    · obtain rfl : a = b := by omega
      exact hl)
  obtain ⟨hk, h1, h2⟩ := part
  have up : ∀ j (hj : j < words.length), i < j → bytesLt (words[j].1) (words[i].1 ++ t) = false := by
    intro j hj hij
    refine bytesLt_asymm (lt_append t (sorted i j hi hj hij) ?_)
    apply Bool.eq_false_iff.2
    intro hs
    have := words_prefixFree _ (List.getElem_mem hi) _ (List.getElem_mem hj) hs
    have h' := sorted i j hi hj hij
    rw [this, bytesLt_irrefl] at h'
    simp at h'
  have down : ∀ j (hj : j < words.length), j < i → bytesLt (words[j].1) (words[i].1 ++ t) = true := by
    intro j hj hij
    by_cases ht : t = []
    · rw [ht, List.append_nil]
      exact sorted j i hj hi hij
    · exact bytesLt_trans (sorted j i hj hi hij) (lt_append_self _ ht)
  have sw : startsWith (words[i].1 ++ t) words[i].1 = true := startsWith_iff.2 ⟨t, rfl⟩
  unfold matchWord
  dsimp only
  generalize lowerBound (fun x : Bytes × HT => bytesLt x.1 (words[i].1 ++ t)) words = k at hk h1 h2
  by_cases ht : t = []
  · have : k = i := by
      rcases Nat.lt_trichotomy k i with h | h | h
      · have a := h2 k (by omega) (Nat.le_refl _)
        have b := down k (by omega) h
        rw [a] at b
        simp at b
      · exact h
      · have a := h1 i hi h
        rw [ht, List.append_nil, bytesLt_irrefl] at a
        simp at a
    subst this
    rw [List.getElem?_eq_getElem hi]
    simp [Option.filter, sw]
  · have : k = i + 1 := by
      rcases Nat.lt_trichotomy k (i + 1) with h | h | h
      · have a := h2 i hi (by omega)
        rw [lt_append_self _ ht] at a
        simp at a
      · exact h
      · have a := h1 (i + 1) (by omega) h
        rw [up (i + 1) (by omega) (by omega)] at a
        simp at a
    subst this
    have hn : (words[i + 1]?).filter (fun x => startsWith (words[i].1 ++ t) x.1) = none := by
      rw [Option.filter_eq_none_iff]
      intro y hy hs
      obtain ⟨u, hu⟩ := startsWith_iff.1 hs
      have ym := List.mem_of_getElem? hy
      have hlt : bytesLt words[i].1 y.1 = true := by
        obtain ⟨hlt, e⟩ := List.getElem?_eq_some_iff.1 hy
        rw [← e]
        exact sorted i (i + 1) hi hlt (by omega)
      rcases List.append_eq_append_iff.1 hu with ⟨v, hv, _⟩ | ⟨v, hv, _⟩
      · have := words_prefixFree _ (List.getElem_mem hi) y ym (startsWith_iff.2 ⟨v, hv⟩)
        rw [this, bytesLt_irrefl] at hlt
        simp at hlt
      · have := words_prefixFree y ym _ (List.getElem_mem hi) (startsWith_iff.2 ⟨v, hv⟩)
        rw [this, bytesLt_irrefl] at hlt
        simp at hlt
    rw [hn]
    dsimp only
    rw [List.getElem?_eq_getElem hi]
    simp [Option.filter, sw]

theorem wordStops_iff {s : Bytes} : wordStops s = true ↔ WordStops s := by
  unfold wordStops WordStops WordEnd isWordEnd
  cases s with
  | nil => simp
  | cons c t =>
    have h1 : matchLineBreak (c :: t) ≠ 0 ↔ ¬ InLine c := by
      rw [matchLineBreak_ne]
      simp
    simp only [List.length_cons, Nat.zero_lt_succ, getElem?_pos, List.getElem_cons_zero, ne_eq, decide_not,
      Bool.or_eq_true, decide_eq_true_eq, Bool.not_eq_true', decide_eq_false_iff_not, List.head?_cons,
      Option.some.injEq, forall_eq']
    rw [← ne_eq, h1]
    unfold InLine
    simp
    grind

/-! ## Plain strings -/

theorem plainEnd_iff {c : UInt8} : isPlainEnd c = true ↔ c ∈ b!"\r\n,[]{}#" := by
  unfold isPlainEnd
  simp

theorem plainLength_le (past : Bool) (s : Bytes) : plainLength past s ≤ s.length := by
  induction s generalizing past with
  | nil => simp [plainLength]
  | cons c t ih =>
    unfold plainLength
    have := ih true
    (repeat' split) <;> simp <;> omega

theorem plainLength_spec (past : Bool) (s : Bytes) :
    (∀ k, k < plainLength past s → ¬ PlainStops (past || decide (0 < k)) (s.drop k)) ∧
      PlainStops (past || decide (0 < plainLength past s)) (s.drop (plainLength past s)) := by
  induction s generalizing past with
  | nil => exact ⟨by simp [plainLength], by simpa [plainLength] using PlainStops.nil⟩
  | cons c t ih =>
    unfold plainLength
    split
    · rename_i h
      exact ⟨by simp, .char (plainEnd_iff.1 h)⟩
    · rename_i h1
      split
      · rename_i h
        refine ⟨by simp, ?_⟩
        cases t with
        | nil => simp at h
        | cons d u =>
          simp at h
          obtain ⟨⟨rfl, rfl⟩, rfl⟩ := h
          exact .comment
      · rename_i h2
        split
        · rename_i h
          refine ⟨by simp, ?_⟩
          simp at h
          obtain ⟨⟨rfl, rfl⟩, h⟩ := h
          exact .colon (separates_iff.1 h)
        · rename_i h3
          obtain ⟨i1, i2⟩ := ih true
          refine ⟨?_, by simpa using i2⟩
          intro k hk
          cases k with
          | succ j =>
            have := i1 j (by omega)
            simpa using this
          | zero =>
            simp only [List.drop_zero]
            intro hs
            have hp : (past || decide (0 < 0)) = past := by simp
            rw [hp] at hs
            cases hs with
            | char h => exact h1 (plainEnd_iff.2 h)
            | comment => simp_all
            | colon h =>
              rw [← separates_iff] at h
              simp_all

/-! ## Numbers -/

theorem numberStops_of {s : Bytes} (h : numberStops s = true) : NumberStops s := by
  unfold numberStops at h
  split at h
  · exact .nil
  · rename_i c t
    simp only [ne_eq, decide_not, Bool.or_eq_true, Bool.not_eq_true', decide_eq_false_iff_not, decide_eq_true_eq,
      Bool.and_eq_true] at h
    rcases h with ((((h | h) | h) | h) | ⟨h, h'⟩) | ⟨h, h'⟩
    · exact .char (plainEnd_iff.1 h)
    · obtain ⟨d, u, e, hd⟩ := matchLineBreak_ne.1 h
      simp at e
      obtain ⟨rfl, rfl⟩ := e
      refine .char ?_
      unfold InLine at hd
      simp
      grind
    · subst h
      exact .char (by simp)
    · subst h
      exact .char (by simp)
    · subst h
      exact .colon (separates_iff.1 h')
    · subst h
      cases t with
      | nil => simp at h'
      | cons d u =>
        refine .space ?_
        simp [isFlowIndicator] at h'
        simp
        grind

theorem digit_in {b : Nat} (hb : b ∈ [2, 8, 10, 16]) {c : UInt8} (h : isDigitBase c b = true) :
    ∃ v, digitVal c = some v ∧ v < b := by
  have h2 : ∀ c : UInt8, isDigitBase c 2 = true → (digitVal c).any (· < 2) = true := by
    apply forall_byte; decide +kernel
  have h8 : ∀ c : UInt8, isDigitBase c 8 = true → (digitVal c).any (· < 8) = true := by
    apply forall_byte; decide +kernel
  have h10 : ∀ c : UInt8, isDigitBase c 10 = true → (digitVal c).any (· < 10) = true := by
    apply forall_byte; decide +kernel
  have h16 : ∀ c : UInt8, isDigitBase c 16 = true → (digitVal c).any (· < 16) = true := by
    apply forall_byte; decide +kernel
  have : (digitVal c).any (· < b) = true := by
    simp at hb
    rcases hb with rfl | rfl | rfl | rfl
    · exact h2 c h
    · exact h8 c h
    · exact h10 c h
    · exact h16 c h
  cases hv : digitVal c with
  | none => simp [hv] at this
  | some v => exact ⟨v, rfl, by simpa [hv] using this⟩

theorem decDigit_in {c : UInt8} (h : isDigit c = true) : ∃ v, digitVal c = some v ∧ v < 10 := by
  refine digit_in (by simp) ?_
  revert c
  apply forall_byte
  decide +kernel

theorem special_mem {s : Bytes} {r : NumberResult} (h : specials.findSome? (matchSpecial s) = some r) :
    ∃ w t, s = w ++ t ∧ w ∈ Spec.Yaml.specials ∧ r.length = w.length ∧ r.erroneous = false := by
  obtain ⟨x, hx, h⟩ := List.exists_of_findSome?_eq_some h
  unfold matchSpecial at h
  dsimp only at h
  by_cases hsign : (x.2 && (startsWith s b!"+" || startsWith s b!"-")) = true
  · rw [if_pos hsign] at h
    split at h
    · rename_i hs
      simp only [Option.some.injEq] at h
      subst h
      obtain ⟨t, ht⟩ := startsWith_iff.1 hs
      simp at hsign
      obtain ⟨h2, h3⟩ := hsign
      have : ∃ sg : UInt8, sg ∈ b!"+-" ∧ s = sg :: (x.1 ++ t) := by
        rcases h3 with h3 | h3
        · obtain ⟨u, rfl⟩ := startsWith_iff.1 h3
          simp at ht
          exact ⟨43, by decide, by rw [← ht]; rfl⟩
        · obtain ⟨u, rfl⟩ := startsWith_iff.1 h3
          simp at ht
          exact ⟨45, by decide, by rw [← ht]; rfl⟩
      obtain ⟨sg, hsg, e⟩ := this
      refine ⟨sg :: x.1, t, by simp [e], ?_, by simp; omega, rfl⟩
      have key : ∀ x ∈ specials, x.2 = true → ∀ sg ∈ b!"+-", sg :: x.1 ∈ Spec.Yaml.specials := by decide +kernel
      exact key x hx h2 sg hsg
    · simp at h
  · rw [if_neg hsign] at h
    split at h
    · rename_i hs
      simp only [Option.some.injEq] at h
      subst h
      obtain ⟨t, ht⟩ := startsWith_iff.1 hs
      have key : ∀ x ∈ specials, x.1 ∈ Spec.Yaml.specials := by decide +kernel
      exact ⟨x.1, t, by simpa using ht, key x hx, by simp, rfl⟩
    · simp at h

theorem matchSexagesimal_some {s : Bytes} {n : Nat} (h : matchSexagesimal s = some n) :
    ∃ w t, s = w ++ t ∧ Number w ∧ n = w.length := by
  unfold matchSexagesimal at h
  dsimp only at h
  have dg : ∀ s : Bytes, DigitsIn 10 (s.take (Ascii.length_if s isDigit)) := by
    intro s c hc
    exact decDigit_in ((length_if_zero_longest s isDigit (isDigit · = true) (by simp)).1 c hc)
  have le : ∀ s : Bytes, Ascii.length_if s isDigit ≤ s.length := fun s => (length_if_le s _ 0 (by omega)).2
  split at h
  · rename_i h1
    simp at h1
    have ea := List.getElem?_eq_some_iff.1 h1.2
    obtain ⟨la, ea⟩ := ea
    have s1 : s = s.take (Ascii.length_if s isDigit) ++ c!":" :: s.drop (Ascii.length_if s isDigit + 1) := by
      conv => lhs; rw [← List.take_append_drop (Ascii.length_if s isDigit) s, List.drop_eq_getElem_cons la, ea]
    have ha := dg s
    have na : s.take (Ascii.length_if s isDigit) ≠ [] := by
      intro e
      have := congrArg List.length e
      rw [List.length_take] at this
      simp only [List.length_nil] at this
      omega
    have la' : (s.take (Ascii.length_if s isDigit)).length = Ascii.length_if s isDigit := by
      rw [List.length_take]; omega
    generalize Ascii.length_if s isDigit = a at *
    generalize s.take a = A at *
    split at h
    · rename_i h2
      have hb := dg (s.drop (a + 1))
      have lb := le (s.drop (a + 1))
      have nb : (s.drop (a + 1)).take (Ascii.length_if (s.drop (a + 1)) isDigit) ≠ [] := by
        intro e
        have := congrArg List.length e
        rw [List.length_take] at this
        simp at this h2 lb
        omega
      have lb' : ((s.drop (a + 1)).take (Ascii.length_if (s.drop (a + 1)) isDigit)).length =
          Ascii.length_if (s.drop (a + 1)) isDigit := by rw [List.length_take]; omega
      have s2 := (List.take_append_drop (Ascii.length_if (s.drop (a + 1)) isDigit) (s.drop (a + 1))).symm
      generalize Ascii.length_if (s.drop (a + 1)) isDigit = b at *
      generalize (s.drop (a + 1)).take b = B at *
      split at h
      · rename_i h3
        simp at h
        obtain ⟨lc, ec⟩ := List.getElem?_eq_some_iff.1 h3
        have hc := dg (s.drop (a + 1 + b + 1))
        have lc' := le (s.drop (a + 1 + b + 1))
        have s3 : (s.drop (a + 1)).drop b = c!":" :: s.drop (a + 1 + b + 1) := by
          rw [List.drop_drop, List.drop_eq_getElem_cons lc, ec]
        have s4 := (List.take_append_drop (Ascii.length_if (s.drop (a + 1 + b + 1)) isDigit) (s.drop (a + 1 + b + 1))).symm
        have lc'' : ((s.drop (a + 1 + b + 1)).take (Ascii.length_if (s.drop (a + 1 + b + 1)) isDigit)).length =
          Ascii.length_if (s.drop (a + 1 + b + 1)) isDigit := by rw [List.length_take]; omega
        generalize Ascii.length_if (s.drop (a + 1 + b + 1)) isDigit = c at *
        generalize (s.drop (a + 1 + b + 1)).take c = C at *
        generalize (s.drop (a + 1 + b + 1)).drop c = W at *
        rw [s4] at s3
        rw [s3] at s2
        rw [s2] at s1
        refine ⟨A ++ b!":" ++ B ++ b!":" ++ C, W, ?_, .sexagesimal3 ha hb hc na nb, ?_⟩
        · rw [s1]
          simp
        · simp
          omega
      · simp at h
        generalize (s.drop (a + 1)).drop b = W at *
        rw [s2] at s1
        refine ⟨A ++ b!":" ++ B, W, ?_, .sexagesimal ha hb na nb, ?_⟩
        · rw [s1]
          simp
        · simp
          omega
    · simp at h
  · simp at h

theorem common_prefixed {s : Bytes} {o : NumberOptions} (ho : ∀ p ∈ o.prefixes, p.floatingPoint = false)
    (h : (matchCommonNumber s o).pre > 0) :
    (matchCommonNumber s o).radixPoint = 0 ∧ (matchCommonNumber s o).fractional = 0 ∧
      (matchCommonNumber s o).exponentSep = 0 ∧ (matchCommonNumber s o).exponentDigits = 0 := by
  have key : ∀ t, (numPrefix o t).1 = 0 ∨ (numPrefix o t).2.2 = false := by
    intro t
    unfold numPrefix
    split
    · rename_i p hp
      exact Or.inr (ho p (List.mem_of_find?_eq_some hp))
    · exact Or.inl rfl
  unfold matchCommonNumber at h ⊢
  split at h
  · simp at h
  · rename_i h0
    rw [if_neg h0]
    dsimp only at h ⊢
    rcases key (s.drop (numSign o s)) with h1 | h1
    · split at h
      · simp at h
      · split at h
        · simp at h
        · simp [h1] at h
    · rw [h1]
      simp only [numFraction, Bool.false_and, Bool.false_eq_true, if_false]
      split <;> simp

theorem common_decimal {s : Bytes} (h : (matchCommonNumber s decimalOptions).erroneous = true) :
    (matchCommonNumber s decimalOptions).exponentSep ≠ 0 ∧ (matchCommonNumber s decimalOptions).exponentDigits = 0 := by
  have hp : ∀ t, (numPrefix decimalOptions t).1 = 0 := fun t => rfl
  have hd : ∀ t b, (matchSeparatedDigits t b decimalOptions.digitSeparator).erroneous = false := fun t b => rfl
  have he : ∀ t, (numExponent decimalOptions t).2.2 = true →
      (numExponent decimalOptions t).1 ≠ 0 ∧ (numExponent decimalOptions t).2.1 = 0 := by
    intro t
    unfold numExponent
    split
    · rename_i p hp
      have hm := List.mem_of_find?_eq_some hp
      have : ∀ p ∈ decimalOptions.exponentSeparators, p.length ≠ 0 := by decide
      intro h
      exact ⟨this p hm, by simpa using h⟩
    · simp
  unfold matchCommonNumber at h ⊢
  split at h
  · simp at h
  · rename_i h0
    rw [if_neg h0]
    dsimp only at h ⊢
    split at h
    · simp at h
    · rename_i f hf
      have hf2 : f.2.2 = false := by
        unfold numFraction at hf
        split at hf
        · dsimp only at hf
          split at hf
          · simp at hf
          · simp at hf
            rw [← hf]
            simp [decimalOptions]
            rfl
        · simp at hf
          rw [← hf]
      split at h
      · simp at h
      · rename_i hl
        rw [if_neg hl]
        dsimp only at h ⊢
        simp only [hd, hf2, hp, show decimalOptions.nonemptyInteger = false from rfl, Bool.false_and, Bool.or_false,
          Bool.false_or, Bool.or_eq_true, beq_iff_eq] at h hl ⊢
        rcases h with h | h
        · split at h
          · rename_i hc
            rw [if_pos hc]
            exact he _ h
          · simp at h
        · omega

/-- What `match_number` recognizes. -/
theorem matchNumber_facts {s : Bytes} (h : (matchNumber s).length ≠ 0) :
    ∃ w t, s = w ++ t ∧ (matchNumber s).length = w.length ∧
      (if (matchNumber s).erroneous then BadNumber w else Number w) := by
  unfold matchNumber at h ⊢
  split at h
  · rename_i r hr
    obtain ⟨w, t, e, hw, hl, hn⟩ := special_mem hr
    exact ⟨w, t, e, hl, by rw [hn]; exact .special hw⟩
  · dsimp only at h ⊢
    split at h
    · rename_i hp
      rw [if_pos hp]
      simp only [ne_eq, decide_not, Bool.and_eq_true, Bool.not_eq_true', decide_eq_false_iff_not,
        decide_eq_true_eq] at hp
      obtain ⟨h0, hp⟩ := hp
      rcases C23_parts s prefixedOptions (by simp [prefixedOptions]) with h1 | ⟨p, h1⟩
      · rw [h1] at h0
        simp at h0
      · obtain ⟨c1, c2, c3, c4⟩ := common_prefixed (s := s) (o := prefixedOptions) (by decide) hp
        rw [h1.point] at c1
        rw [h1.fraction] at c2
        rw [h1.expSep] at c3
        rw [h1.expDigits] at c4
        simp only [List.length_eq_zero_iff] at c1 c2 c3 c4
        have c5 : p.suffix = [] := by
          rcases h1.suffixOk with h | h | ⟨f, h, _⟩
          · exact h
          · simp [prefixedOptions] at h
          · simp [prefixedOptions] at h
        have c6 : p.sign = [] := by
          rcases h1.signOk with h | ⟨_, h⟩ | ⟨_, h⟩
          · exact h
          · simp [prefixedOptions] at h
          · simp [prefixedOptions] at h
        have ht : p.text = p.pre ++ p.integer := by simp [NumberParts.text, c1, c2, c3, c4, c5, c6]
        obtain ⟨t, e⟩ := h1.text
        obtain ⟨base, hb, hi, _⟩ := h1.digitsOk
        have hne : p.pre ≠ [] := by
          intro e
          rw [h1.pre, e] at hp
          simp at hp
        have hb : (p.pre, base) ∈ Spec.Yaml.prefixes ∧ base ∈ [2, 8, 10, 16] := by
          rcases hb with ⟨h, _⟩ | ⟨q, hq, h2, h3⟩
          · exact absurd h hne
          · rw [← h2, ← h3]
            have : ∀ q ∈ prefixedOptions.prefixes, (q.str, q.base) ∈ Spec.Yaml.prefixes ∧ q.base ∈ [2, 8, 10, 16] := by
              decide
            exact this q hq
        refine ⟨p.text, t, e, h1.length, ?_⟩
        rw [ht]
        split
        · rename_i herr
          have : p.integer = [] := by
            rcases h1.reason (by simp [prefixedOptions]) herr with h | h | h | h
            · exact h
            · exact absurd c1 h.1
            · exact absurd c3 h.1
            · exact absurd rfl h.1
          rw [this, List.append_nil]
          exact .prefix hb.1
        · rename_i herr
          refine .prefixed hb.1 (fun h => herr (h1.integerReported rfl h)) ?_
          intro c hc
          rcases hi c hc with h | h
          · exact digit_in hb.2 h
          · exact absurd rfl h.1
    · rename_i hp
      rw [if_neg hp]
      split at h
      · rename_i n hn
        obtain ⟨w, t, e, hw, hl⟩ := matchSexagesimal_some hn
        exact ⟨w, t, e, hl, by simpa using hw⟩
      · rcases C23_parts s decimalOptions (by simp [decimalOptions]) with h1 | ⟨p, h1⟩
        · rw [h1] at h
          simp at h
        · have fits : Fits decimalOptions decimals := by
            constructor
            · decide
            · decide
            · decide
            · simp [decimalOptions]
            · simp [decimalOptions]
            · decide
            · rfl
          have hparts := fits.parts h1
          obtain ⟨t, e⟩ := h1.text
          refine ⟨p.text, t, e, h1.length, ?_⟩
          split
          · rename_i herr
            have c := common_decimal herr
            rw [h1.expSep, h1.expDigits] at c
            refine .exponent hparts ?_ (List.length_eq_zero_iff.1 c.2)
            intro h
            simp [h] at c
          · rename_i herr
            refine .decimal hparts ?_ (fun h1' h2' => herr (h1.expReported h1' h2'))
            intro h
            have := h1.nonempty
            rw [h1.length, h] at this
            simp at this

/-! ## Quotation marks -/

theorem doubleKey_spec (s : Bytes) :
    (∃ v t, DoubleText v ∧ s = v ++ b!"\"" ++ t ∧ doubleKey s = v.length + 1) ∨
      ∃ v w, DoubleText v ∧ w ∈ [b!"", b!"\\"] ∧ s = v ++ w ∧ doubleKey s = v.length + w.length := by
  induction s using doubleKey.induct with
  | case1 => exact Or.inr ⟨[], [], .nil, by simp, rfl, rfl⟩
  | case2 t => exact Or.inl ⟨[], t, .nil, rfl, by unfold doubleKey; simp⟩
  | case3 h =>
    exact Or.inr ⟨[], b!"\\", .nil, by simp, rfl, by simp [doubleKey]⟩
  | case4 d u h ih =>
    rcases ih with ⟨v, t, hv, e, el⟩ | ⟨v, w, hv, hw, e, el⟩
    · exact Or.inl ⟨c!"\\" :: d :: v, t, .escape hv, by simp [e], by simp [doubleKey, el]⟩
    · exact Or.inr ⟨c!"\\" :: d :: v, w, .escape hv, hw, by simp [e], by simp [doubleKey, el]; omega⟩
  | case5 c t h h' ih =>
    have e1 : doubleKey (c :: t) = doubleKey t + 1 := by
      conv => lhs; unfold doubleKey
      rw [if_neg h, if_neg h']
    rcases ih with ⟨v, t', hv, e, el⟩ | ⟨v, w, hv, hw, e, el⟩
    · exact Or.inl ⟨c :: v, t', .char (by simp; grind) hv, by simp [e], by simp [e1, el]⟩
    · exact Or.inr ⟨c :: v, w, .char (by simp; grind) hv, hw, by simp [e], by simp [e1, el]; omega⟩

theorem singleKey_spec (s : Bytes) :
    (∃ v t, SingleText v ∧ s = v ++ b!"'" ++ t ∧ t.head? ≠ some c!"'" ∧ singleKey s = v.length + 1) ∨
      (SingleText s ∧ singleKey s = s.length) := by
  induction s using singleKey.induct with
  | case1 => exact Or.inr ⟨.nil, rfl⟩
  | case2 => exact Or.inl ⟨[], [], .nil, rfl, by simp, by simp [singleKey]⟩
  | case3 u ih =>
    rcases ih with ⟨v, t, hv, e, ht, el⟩ | ⟨hv, el⟩
    · exact Or.inl ⟨c!"'" :: c!"'" :: v, t, .quote hv, by simp [e], ht, by simp [singleKey, el]⟩
    · exact Or.inr ⟨.quote hv, by simp [singleKey, el]⟩
  | case4 d u h' =>
    exact Or.inl ⟨[], d :: u, .nil, rfl, by simpa using h', by simp [singleKey, h']⟩
  | case5 c t h ih =>
    have e1 : singleKey (c :: t) = singleKey t + 1 := by
      conv => lhs; unfold singleKey
      rw [if_neg h]
    rcases ih with ⟨v, t', hv, e, ht, el⟩ | ⟨hv, el⟩
    · exact Or.inl ⟨c :: v, t', .char h hv, by simp [e], ht, by simp [e1, el]⟩
    · exact Or.inr ⟨.char h hv, by simp [e1, el]⟩

theorem doubleKey_quoted (s : Bytes) :
    QuotedKey (c!"\"" :: s) (doubleKey s + 1) ∧ doubleKey s ≤ s.length := by
  rcases doubleKey_spec s with ⟨v, t, hv, e, el⟩ | ⟨v, w, hv, hw, e, el⟩
  · subst e
    rw [el]
    exact ⟨by simpa using QuotedKey.double (t := t) hv, by simp⟩
  · subst e
    rw [el]
    exact ⟨by simpa using QuotedKey.openDouble hv hw, by simp⟩

theorem singleKey_quoted (s : Bytes) :
    QuotedKey (c!"'" :: s) (singleKey s + 1) ∧ singleKey s ≤ s.length := by
  rcases singleKey_spec s with ⟨v, t, hv, e, ht, el⟩ | ⟨hv, el⟩
  · subst e
    rw [el]
    exact ⟨by simpa using QuotedKey.single (t := t) hv ht, by simp⟩
  · rw [el]
    exact ⟨by simpa using QuotedKey.openSingle hv, Nat.le_refl _⟩

theorem singleRun_spec (s : Bytes) : ∃ v t, s = v ++ t ∧ singleRun s = v.length ∧ SingleText v ∧ OneLine v ∧
    (t = [] ∨ (∃ c u, t = c :: u ∧ c ∈ b!"\r\n") ∨ ∃ u, t = b!"'" ++ u ∧ u.head? ≠ some c!"'") := by
  induction s using singleRun.induct with
  | case1 => exact ⟨[], [], rfl, rfl, .nil, by simp [OneLine], Or.inl rfl⟩
  | case2 =>
    exact ⟨[], _, rfl, by simp [singleRun], .nil, by simp [OneLine], Or.inr (Or.inr ⟨[], rfl, by simp⟩)⟩
  | case3 u ih =>
    obtain ⟨v, t, e, el, hv, ho, ht⟩ := ih
    refine ⟨c!"'" :: c!"'" :: v, t, by simp [e], by simp [singleRun, el], .quote hv, ?_, ht⟩
    intro c hc
    simp at hc
    rcases hc with rfl | hc
    · unfold InLine; decide
    · exact ho c hc
  | case4 d u h' =>
    exact ⟨[], _, rfl, by simp [singleRun, h'], .nil, by simp [OneLine], Or.inr (Or.inr ⟨d :: u, rfl, by simpa using h'⟩)⟩
  | case5 c t h h' =>
    simp at h'
    refine ⟨[], _, rfl, ?_, .nil, by simp [OneLine], Or.inr (Or.inl ⟨c, t, rfl, by simpa using h'⟩)⟩
    unfold singleRun
    rw [if_neg h, if_pos (by simpa using h')]
    rfl
  | case6 c t h h' ih =>
    obtain ⟨v, t', e, el, hv, ho, ht⟩ := ih
    refine ⟨c :: v, t', by simp [e], ?_, .char h hv, ?_, ht⟩
    · unfold singleRun
      rw [if_neg h, if_neg h', el]
      simp
    · intro d hd
      simp at hd
      rcases hd with rfl | hd
      · simp at h'
        exact ⟨h'.2, h'.1⟩
      · exact ho d hd

/-! ## Keys -/

theorem findColon_some {q : Option UInt8} {s : Bytes} {k : Nat} (h : findColon q s = some k) :
    ∃ v t, s = v ++ b!":" ++ t ∧ v.length = k ∧ Separates t ∧ KeyText t q v := by
  induction q, s using findColon.induct generalizing k with
  | case1 q => simp [findColon] at h
  | case2 q c t hc =>
    unfold findColon at h
    rw [if_pos hc] at h
    simp at h
  | case3 t q hc ih =>
    unfold findColon at h
    rw [if_neg hc] at h
    simp at h
    obtain ⟨j, hj, rfl⟩ := h
    obtain ⟨v, u, rfl, rfl, hu, hv⟩ := ih hj
    exact ⟨q :: v, u, by simp, by simp, hu, .leave hv⟩
  | case4 c hc q hq he =>
    unfold findColon at h
    rw [if_neg hc] at h
    dsimp only at h
    rw [if_neg hq, if_pos he] at h
    simp at h
  | case5 c hc q hq he d u ih =>
    unfold findColon at h
    rw [if_neg hc] at h
    dsimp only at h
    rw [if_neg hq, if_pos he] at h
    simp at h he
    obtain ⟨j, hj, rfl⟩ := h
    obtain ⟨rfl, rfl⟩ := he
    obtain ⟨v, u, rfl, rfl, hu, hv⟩ := ih hj
    exact ⟨_ :: d :: v, u, by simp, by simp, hu, .escape hv⟩
  | case6 c t hc q hq he ih =>
    unfold findColon at h
    rw [if_neg hc] at h
    dsimp only at h
    rw [if_neg hq, if_neg he] at h
    simp at h he hc
    obtain ⟨j, hj, rfl⟩ := h
    obtain ⟨v, u, rfl, rfl, hu, hv⟩ := ih hj
    exact ⟨c :: v, u, by simp, by simp, hu, .inner ⟨hc.2, hc.1⟩ hq (fun h => he h.1 h.2) hv⟩
  | case7 c t hc hq ih =>
    unfold findColon at h
    rw [if_neg hc] at h
    dsimp only at h
    rw [if_pos hq] at h
    simp at h hq
    obtain ⟨j, hj, rfl⟩ := h
    obtain ⟨v, u, rfl, rfl, hu, hv⟩ := ih hj
    exact ⟨c :: v, u, by simp, by simp, hu, .enter (by simpa using hq) hv⟩
  | case8 t hc hq =>
    unfold findColon at h
    rw [if_neg hc] at h
    dsimp only at h
    rw [if_neg hq] at h
    simp at h
  | case9 c t hc hq hh hs =>
    unfold findColon at h
    rw [if_neg hc] at h
    dsimp only at h
    rw [if_neg hq, if_neg hh, if_pos hs] at h
    simp at h hs
    obtain ⟨rfl, hs⟩ := hs
    subst h
    exact ⟨[], t, by simp, rfl, separates_iff.1 hs, .done⟩
  | case10 c t hc hq hh hs ih =>
    unfold findColon at h
    rw [if_neg hc] at h
    dsimp only at h
    rw [if_neg hq, if_neg hh, if_neg hs] at h
    simp at h hs hq hc
    obtain ⟨j, hj, rfl⟩ := h
    obtain ⟨v, u, rfl, rfl, hu, hv⟩ := ih hj
    refine ⟨c :: v, u, by simp, by simp, hu, .plain ⟨hc.2, hc.1⟩ (by simp; grind) ?_ hv⟩
    intro e h
    rw [← separates_iff] at h
    have := hs e
    simp at this h
    rw [h] at this
    simp at this

theorem directiveName_longest (s : Bytes) :
    Longest (fun c => InLine c ∧ ¬ Blank c) s (directiveName s) ∧ directiveName s ≤ s.length := by
  have : directiveName s = (s.takeWhile fun c => !isWs c && c != 0x0A && c != 0x0D).length := by
    induction s with
    | nil => rfl
    | cons c t ih =>
      unfold directiveName
      rw [List.takeWhile_cons]
      have hb : matchLineBreak (c :: t) ≠ 0 ↔ ¬ InLine c := by
        rw [matchLineBreak_ne]
        simp
      by_cases hl : InLine c
      · have h0 : matchLineBreak (c :: t) = 0 := Classical.byContradiction fun h => hb.1 h hl
        rw [h0, ih]
        by_cases h1 : isWs c = true
        · simp [h1]
        · simp [h1, hl.1, hl.2]
      · have h0 := hb.2 hl
        rw [if_pos (by simp [h0]), if_neg]
        · rfl
        · unfold InLine at hl
          simp at hl ⊢
          grind
  rw [this]
  refine ⟨takeWhile_longest _ _ ?_ s, (List.takeWhile_prefix _).length_le⟩
  intro c
  unfold isWs Blank InLine
  simp
  grind

end Yaml
end Ulight
