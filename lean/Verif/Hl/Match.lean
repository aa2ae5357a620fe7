import Verif.Hl.Auto
import Verif.Props.Text
import Verif.Spec.Lang.Common

/-!
# Matching functions, as highlighters use them
-/

namespace Ulight

open Spec

theorem isDigit_iff (c : UInt8) : isDigit c = true ↔ DecDigit c := by
  simp [isDigit, DecDigit, UInt8.le_iff_toNat_le]

theorem isAlpha_iff (c : UInt8) : isAlpha c = true ↔ Letter c := by
  simp [isAlpha, isLower, isUpper, Letter, UInt8.le_iff_toNat_le]

theorem isAlnum_iff (c : UInt8) : isAlnum c = true ↔ Letter c ∨ DecDigit c := by
  simp [isAlnum, isDigit_iff, isAlpha_iff]

theorem takeWhile_longest (p : UInt8 → Bool) (P : UInt8 → Prop) (hP : ∀ c, p c = true ↔ P c)
    (s : Bytes) : Longest P s (s.takeWhile p).length := by
  induction s with
  | nil => simp [Longest]
  | cons a s ih =>
    rw [List.takeWhile_cons]
    split
    · rename_i h
      obtain ⟨h1, h2⟩ := ih
      refine ⟨?_, ?_⟩
      · simp only [List.length_cons, List.take_succ_cons, List.mem_cons]
        rintro c (rfl | hc)
        · exact (hP _).1 h
        · exact h1 c hc
      · intro c hc
        simp at hc
        exact h2 c hc
    · rename_i h
      refine ⟨by simp, ?_⟩
      intro c hc
      simp at hc
      subst hc
      rwa [← hP]

theorem length_if_le (s : Bytes) (p : UInt8 → Bool) (k : Nat) (hk : k ≤ s.length) :
    k ≤ Ascii.length_if s p k ∧ Ascii.length_if s p k ≤ s.length := by
  rw [Ascii.length_if_start s p k hk]
  have := (List.takeWhile_prefix p (l := s.drop k)).length_le
  simp at this
  omega

theorem length_if_not_le (s : Bytes) (p : UInt8 → Bool) (k : Nat) (hk : k ≤ s.length) :
    k ≤ Ascii.length_if_not s p k ∧ Ascii.length_if_not s p k ≤ s.length := by
  rw [Ascii.length_if_not_start s p k hk]
  have := (List.takeWhile_prefix (fun c => !p c) (l := s.drop k)).length_le
  simp at this
  omega

theorem length_if_longest (s : Bytes) (p : UInt8 → Bool) (P : UInt8 → Prop)
    (hP : ∀ c, p c = true ↔ P c) (k : Nat) (hk : k ≤ s.length) :
    Longest P (s.drop k) (Ascii.length_if s p k - k) := by
  rw [Ascii.length_if_start s p k hk, Nat.add_sub_cancel_left]
  exact takeWhile_longest p P hP _

theorem length_if_zero_longest (s : Bytes) (p : UInt8 → Bool) (P : UInt8 → Prop)
    (hP : ∀ c, p c = true ↔ P c) : Longest P s (Ascii.length_if s p) := by
  simpa using length_if_longest s p P hP 0 (by omega)

theorem length_if_not_longest (s : Bytes) (p : UInt8 → Bool) (P : UInt8 → Prop)
    (hP : ∀ c, p c = false ↔ P c) (k : Nat) (hk : k ≤ s.length) :
    Longest P (s.drop k) (Ascii.length_if_not s p k - k) := by
  rw [Ascii.length_if_not_start s p k hk, Nat.add_sub_cancel_left]
  exact takeWhile_longest (fun c => !p c) P (by simpa using hP) _

theorem length_if_not_zero_longest (s : Bytes) (p : UInt8 → Bool) (P : UInt8 → Prop)
    (hP : ∀ c, p c = false ↔ P c) : Longest P s (Ascii.length_if_not s p) := by
  simpa using length_if_not_longest s p P hP 0 (by omega)

theorem find_if_not_none (t : Bytes) (p : UInt8 → Bool) (k : Nat) :
    (Ascii.find_if_not t p k).isNone = true ↔ ∀ c ∈ t.drop k, p c = true := by
  have := Ascii.C16_find_if_not t p k
  split at this
  · rename_i j hj
    obtain ⟨h1, ⟨c, h2, h3⟩, _⟩ := this
    simp only [hj, Option.isNone_some, Bool.false_eq_true, false_iff]
    intro h
    have := h c (List.mem_iff_getElem?.2 ⟨j - k, by
      rw [List.getElem?_drop, show k + (j - k) = j by omega, h2]⟩)
    simp [h3] at this
  · rename_i hj
    simp only [hj, Option.isNone_none, true_iff]
    intro c hc
    obtain ⟨i, hi⟩ := List.mem_iff_getElem?.1 hc
    rw [List.getElem?_drop] at hi
    exact this _ c (by omega) hi

theorem escapeAt_le (kind : EscapeKind) (s : Bytes) (k : Nat) (hk : k ≤ s.length) :
    k ≤ (matchCommonEscapeAt kind s k).length ∧ (matchCommonEscapeAt kind s k).length ≤ s.length := by
  have := C28_bounds kind (s.drop k)
  simp [matchCommonEscapeAt] at this ⊢
  omega

grind_pattern escapeAt_le => matchCommonEscapeAt kind s k

/-- An escape that is not erroneous. -/
theorem escapeAt_spec (kind : EscapeKind) (hk : ¬ Braced kind) (s : Bytes) (k : Nat)
    (he : (matchCommonEscapeAt kind s k).erroneous = false) :
    IsEscape kind ((s.take (matchCommonEscapeAt kind s k).length).drop k) := by
  have h1 := (C28_unbraced kind hk (s.drop k)).1 (by simpa [matchCommonEscapeAt] using he)
  have : (matchCommonEscapeAt kind s k).length = k + (matchCommonEscape kind (s.drop k)).length := by
    simp [matchCommonEscapeAt, Nat.add_comm]
  rw [this, ← List.take_drop]
  exact h1

/-- An erroneous escape does not begin with an escape. -/
theorem escapeAt_erroneous (kind : EscapeKind) (hk : ¬ Braced kind) (s : Bytes) (k : Nat)
    (he : (matchCommonEscapeAt kind s k).erroneous = true) :
    ∀ t u, s.drop k = t ++ u → ¬ IsEscape kind t := by
  intro t u h1 h2
  have := ((C28_unbraced kind hk (s.drop k)).2 t u h1 h2).1
  simp only [matchCommonEscapeAt] at he
  rw [this] at he
  cases he

theorem braced_accepted (s : Bytes) (p : UInt8 → Bool) (P : UInt8 → Prop) (hP : ∀ c, p c = true ↔ P c)
    (he : (matchBracedEscape s p).erroneous = false) : ∃ ds, ds ≠ [] ∧ (∀ c ∈ ds, P c) ∧
      (s.take (matchBracedEscape s p).length = b!"{" ++ ds ∨
        s.take (matchBracedEscape s p).length = b!"{" ++ ds ++ b!"}") := by
  unfold matchBracedEscape at *
  split at he
  · cases he
  · rename_i h
    rw [if_neg h]
    have h1 : startsWith s b!"{" = true := by simpa using h
    clear h
    match s, h1 with
    | a :: t, h1 =>
      obtain rfl : a = c!"{" := by simpa [startsWith] using Eq.symm (by simpa [startsWith] using h1)
      have hl := (Ascii.C16_lengths (c!"{" :: t) p p c!"}" 1 (by simp)).2.2.1
      simp only [List.drop_succ_cons, List.drop_zero] at hl he ⊢
      generalize Ascii.length_before (c!"{" :: t) c!"}" 1 = L at *
      subst hl
      have hle : (t.takeWhile (· != c!"}")).length ≤ t.length := (List.takeWhile_prefix _).length_le
      have htk : t.take (t.takeWhile (· != c!"}")).length = t.takeWhile (· != c!"}") :=
        (List.prefix_iff_eq_take.1 (List.takeWhile_prefix _)).symm
      generalize ht : t.takeWhile (· != c!"}") = w at *
      simp only [Nat.add_sub_cancel_left, htk, Bool.or_eq_false_iff, decide_eq_false_iff_not,
        Bool.not_eq_false', List.all_eq_true] at he
      refine ⟨w, by rintro rfl; simp at he, fun c hc => (hP c).1 (he.2 c hc), ?_⟩
      split
      · left
        rw [Nat.add_comm, List.take_succ_cons, htk]
        rfl
      · right
        rename_i hn
        rw [not_or, Decidable.not_not] at hn
        rw [show 1 + w.length + 1 = (w.length + 1) + 1 by omega, List.take_succ_cons, List.take_add_one, htk]
        have : t[w.length]? = some c!"}" := by
          have := hn.2
          rw [Nat.add_comm, List.getElem?_cons_succ] at this
          exact this
        rw [this]
        simp

/-- An escape that is not erroneous is accepted in the sense of the specification. -/
theorem escape_accepted (kind : EscapeKind) (s : Bytes) (he : (matchCommonEscape kind s).erroneous = false) :
    Accepted kind (s.take (matchCommonEscape kind s).length) := by
  by_cases hk : Braced kind
  · rcases hk with rfl | rfl | rfl
    · exact braced_accepted s isOctalDigit Octal isOctalDigit_iff he
    · exact braced_accepted s isHexDigit Hex isHexDigit_iff he
    · simp only [matchCommonEscape] at he ⊢
      split at he
      · cases he
      · rename_i h
        rw [if_neg h]
        have h1 : startsWith s b!"{" = true := by simpa using h
        clear h
        match s, h1 with
        | a :: t, h1 =>
          obtain rfl : a = c!"{" := by simpa [startsWith] using Eq.symm (by simpa [startsWith] using h1)
          have := Ascii.findLoop_spec (· == c!"}") true 1 t
          simp only [List.drop_succ_cons, List.drop_zero] at he ⊢
          split at he
          · cases he
          · rename_i i hi
            rw [hi] at this
            obtain ⟨h2, ⟨c, h3, h4⟩, h5⟩ := this
            simp at h4
            subst h4
            obtain ⟨j, rfl⟩ : ∃ j, i = j + 1 := ⟨i - 1, by omega⟩
            refine ⟨t.take j, ?_, ?_⟩
            · simp only [Nat.add_sub_cancel] at h3
              rw [List.take_succ_cons, List.take_add_one, h3]
              simp
            · intro hc
              obtain ⟨k, hk⟩ := List.mem_iff_getElem?.1 hc
              rw [List.getElem?_take] at hk
              split at hk
              · have := h5 k _ (by omega) hk
                simp at this
              · cases hk
  · have := (C28_unbraced kind hk s).1 he
    cases kind <;> first | exact this | exact absurd (by simp [Braced]) hk

/-- The same behind an introducer. -/
theorem escapeAt_accepted (kind : EscapeKind) (s : Bytes) (k : Nat)
    (he : (matchCommonEscapeAt kind s k).erroneous = false) :
    Accepted kind ((s.take (matchCommonEscapeAt kind s k).length).drop k) := by
  have h1 := escape_accepted kind (s.drop k) (by simpa [matchCommonEscapeAt] using he)
  have : (matchCommonEscapeAt kind s k).length = k + (matchCommonEscape kind (s.drop k)).length := by
    simp [matchCommonEscapeAt, Nat.add_comm]
  rw [this, ← List.take_drop]
  exact h1

/-- A text that begins with an escape is not erroneous. -/
theorem escape_complete (kind : EscapeKind) (t u : Bytes) (h : IsEscape kind t) :
    (matchCommonEscape kind (t ++ u)).erroneous = false := by
  by_cases hk : Braced kind
  · have key : ∀ ds, c!"}" ∉ ds → ds ≠ [] → t = b!"{" ++ ds ++ b!"}" →
        (matchCommonEscape kind (t ++ u)).erroneous = false := by
      rintro ds h1 h2 rfl
      exact (C28_braced_partial kind hk ds u h1 fun _ => h2).2.2 h
    rcases hk with rfl | rfl | rfl
    · obtain ⟨ds, h1, h2, h3⟩ := h
      exact key ds (fun hc => by have := h3 _ hc; revert this; simp [Octal]) h2 h1
    · obtain ⟨ds, h1, h2, h3⟩ := h
      exact key ds (fun hc => by have := h3 _ hc; revert this; simp [Hex]) h2 h1
    · obtain ⟨ds, h1, h2, h3⟩ := h
      exact key ds h3 h2 h1
  · exact ((C28_unbraced kind hk (t ++ u)).2 t u rfl h).1

theorem escape_complete_empty (u : Bytes) :
    (matchCommonEscape .nonempty_braced (b!"{}" ++ u)).erroneous = false := by
  simp [matchCommonEscape, startsWith_cons_cons, Ascii.findLoop]

/-- An erroneous escape does not begin with an escape. -/
theorem escapeAt_error (kind : EscapeKind) (s : Bytes) (k : Nat)
    (he : (matchCommonEscapeAt kind s k).erroneous = true) :
    ∀ t u, s.drop k = t ++ u → ¬ (IsEscape kind t ∨ (kind = .nonempty_braced ∧ t = b!"{}")) := by
  intro t u h1 h2
  have : (matchCommonEscape kind (t ++ u)).erroneous = false := by
    rcases h2 with h2 | ⟨rfl, rfl⟩
    · exact escape_complete kind t u h2
    · exact escape_complete_empty u
  rw [← h1] at this
  simp only [matchCommonEscapeAt] at he
  rw [this] at he
  cases he

/-- `find` of one character, seen as a longest match. -/
theorem find_if_longest (s : Bytes) (p : UInt8 → Bool) (P : UInt8 → Prop)
    (hP : ∀ c, p c = false ↔ P c) (k : Nat) (hk : k ≤ s.length) :
    (∃ j c, Ascii.find_if s p k = some j ∧ k ≤ j ∧ j < s.length ∧ s[j]? = some c ∧ p c = true ∧
      Longest P (s.drop k) (j - k)) ∨
    (Ascii.find_if s p k = none ∧ Longest P (s.drop k) (s.length - k)) := by
  have := Ascii.C16_find_if s p k
  split at this
  · rename_i j hj
    obtain ⟨h1, ⟨c, h2, h3⟩, h4⟩ := this
    refine Or.inl ⟨j, c, hj, h1, (List.getElem?_eq_some_iff.1 h2).1, h2, h3, ?_, ?_⟩
    · intro a ha
      obtain ⟨i, hi⟩ := List.mem_iff_getElem?.1 ha
      rw [List.getElem?_take] at hi
      split at hi
      · rw [List.getElem?_drop] at hi
        exact (hP a).1 (h4 (k + i) a (by omega) (by omega) hi)
      · cases hi
    · intro a ha
      rw [List.getElem?_drop, Nat.add_sub_cancel' h1, h2] at ha
      cases ha
      rw [← hP, h3]
      simp
  · rename_i hj
    refine Or.inr ⟨hj, ?_, ?_⟩
    · intro a ha
      obtain ⟨i, hi⟩ := List.mem_iff_getElem?.1 (List.mem_of_mem_take ha)
      rw [List.getElem?_drop] at hi
      exact (hP a).1 (this (k + i) a (by omega) hi)
    · intro a ha
      rw [List.getElem?_drop, List.getElem?_eq_none (by omega)] at ha
      cases ha

theorem occursAt_iff {p s : Bytes} {k : Nat} :
    OccursAt p s k ↔ k ≤ s.length ∧ startsWith (s.drop k) p = true := by
  constructor
  · rintro ⟨a, b, rfl, rfl⟩
    refine ⟨by simp, startsWith_iff.2 ⟨b, by simp⟩⟩
  · rintro ⟨h, h'⟩
    obtain ⟨b, hb⟩ := startsWith_iff.1 h'
    refine ⟨s.take k, b, ?_, by simp; omega⟩
    rw [List.append_assoc, ← hb, List.take_append_drop]

theorem occursAt_zero {p s : Bytes} : OccursAt p s 0 ↔ startsWith s p = true := by
  simp [occursAt_iff]

/-- How to show that a word is the longest one. -/
theorem longestIn_of {words : List Bytes} {s w : Bytes} (hw : w ∈ words) (hs : startsWith s w = true)
    (h : ∀ v ∈ words, w.length < v.length → startsWith s v = false) : LongestIn words s w.length := by
  obtain ⟨t, rfl⟩ := startsWith_iff.1 hs
  refine ⟨by simpa using hw, ?_⟩
  intro m h1 h2 h3
  have h4 := h _ h3 (by rw [List.length_take]; omega)
  have h5 : startsWith (w ++ t) ((w ++ t).take m) = true :=
    startsWith_iff.2 ⟨(w ++ t).drop m, by rw [List.take_append_drop]⟩
  rw [h4] at h5
  cases h5

theorem length_if_pos {s : Bytes} {p : UInt8 → Bool} {c : UInt8} {t : Bytes} (h : s = c :: t)
    (hc : p c = true) : 0 < Ascii.length_if s p := by
  rw [Ascii.length_if_start s p 0 (by omega), h]
  simp [hc]

theorem matchCrlfLine_le (s : Bytes) :
    (matchCrlfLine s).content + (matchCrlfLine s).terminator ≤ s.length := by
  cases s with
  | nil => decide
  | cons c s => exact (C22_match_crlf_line_progress (c :: s) (by simp)).2

grind_pattern matchCrlfLine_le => matchCrlfLine s

grind_pattern length_if_le => Ascii.length_if s p k
grind_pattern length_if_not_le => Ascii.length_if_not s p k

/-- The content is what precedes the first line break. -/
theorem matchCrlfLine_content (s : Bytes) :
    Longest (fun c => c ≠ 0x0A ∧ c ≠ 0x0D) s (matchCrlfLine s).content := by
  obtain ⟨c, t, r, ⟨e, hc, ht⟩, h1, h2⟩ := C22_match_crlf_line s
  rw [h1]
  constructor
  · rw [e, List.append_assoc, List.take_left]
    exact hc
  · intro x hx
    rw [e, List.append_assoc, List.getElem?_append_right (by omega), Nat.sub_self] at hx
    rcases ht with rfl | rfl | ⟨rfl, _⟩ | ⟨rfl, rfl⟩ <;> simp at hx <;> grind

/-- The terminator is made of line breaks. -/
theorem matchCrlfLine_terminator (s : Bytes) :
    ∀ c ∈ (s.drop (matchCrlfLine s).content).take (matchCrlfLine s).terminator,
      c = 0x0A ∨ c = 0x0D := by
  obtain ⟨c, t, r, ⟨e, _, ht⟩, h1, h2⟩ := C22_match_crlf_line s
  rw [h1, h2, e, List.append_assoc, List.drop_left, List.take_left]
  intro c hc
  rcases ht with rfl | rfl | ⟨rfl, _⟩ | ⟨rfl, _⟩ <;> simp at hc <;> grind

/-- What `match_enclosed` says about the text. -/
theorem matchEnclosed_spec (s pre suf : Bytes) :
    (startsWith s pre = false ∧ matchEnclosed s pre suf = {}) ∨
    (∃ body rest, s = pre ++ body ++ suf ++ rest ∧ (∀ k, OccursAt suf (body ++ suf ++ rest) k → body.length ≤ k) ∧
      matchEnclosed s pre suf = ⟨pre.length + body.length + suf.length, true⟩) ∨
    (∃ body, s = pre ++ body ∧ (∀ k, ¬ OccursAt suf body k) ∧ matchEnclosed s pre suf = ⟨s.length, false⟩) := by
  by_cases h : startsWith s pre = true
  · right
    obtain ⟨t, rfl⟩ := startsWith_iff.1 h
    have hs := findSub_spec suf t
    unfold matchEnclosed
    simp only [h, Bool.not_true, Bool.false_eq_true, if_false, List.drop_left]
    cases hf : findSub suf t with
    | none =>
      simp only [hf] at hs
      exact Or.inr ⟨t, rfl, hs, rfl⟩
    | some k =>
      simp only [hf] at hs
      obtain ⟨⟨a, b, e, ha⟩, h2⟩ := hs
      left
      refine ⟨a, b, by rw [e]; simp, ?_, by rw [ha]⟩
      intro j hj
      rw [← e] at hj
      rw [ha]
      exact Nat.le_of_not_lt fun hlt => h2 j hlt hj
  · left
    have h : startsWith s pre = false := by simpa using h
    exact ⟨h, by simp [matchEnclosed, h]⟩
/-- The first digit is a digit in the base that `match_common_number` uses. -/
def DigitBases (o : NumberOptions) : Prop :=
  10 ≤ o.defaultBase ∧ 1 ≤ o.defaultLeadingZeroBase ∧ ∀ p ∈ o.prefixes, p.str ≠ []

theorem isDigitBase_of_digit {c : UInt8} {b : Nat} (h : isDigit c = true) (hb : 10 ≤ b) :
    isDigitBase c b = true := by
  unfold isDigitBase
  rw [if_neg (by omega)]
  simp [h]

theorem numFraction_none {o : NumberOptions} {base pre integer : Nat} {fl : Bool} {s : Bytes}
    (h : numFraction o base pre integer fl s = none) :
    pre = 0 ∧ integer = 0 ∧ (s.drop 1).head?.any isDigit = false := by
  unfold numFraction at h
  grind

/-- A number with a sign, a prefix or integer digits is not empty. -/
theorem number_ne_zero_of (o : NumberOptions) (s : Bytes) (hs : s ≠ [])
    (h : (numPrefix o (s.drop (numSign o s))).1 ≠ 0 ∨
      (matchSeparatedDigits (s.drop (numSign o s + (numPrefix o (s.drop (numSign o s))).1))
        (numPrefix o (s.drop (numSign o s))).2.1 o.digitSeparator).length ≠ 0) :
    (matchCommonNumber s o).length ≠ 0 := by
  unfold matchCommonNumber
  rw [if_neg hs]
  dsimp only
  split
  · rename_i hf
    obtain ⟨h1, h2, _⟩ := numFraction_none hf
    omega
  · rw [if_neg (by omega)]
    dsimp only
    omega

theorem numSign_digit (o : NumberOptions) (s : Bytes) (c : UInt8) (t : Bytes)
    (hs : s = c :: t) (hc : c ≠ c!"+" ∧ c ≠ c!"-") : numSign o s = 0 := by
  unfold numSign
  rw [hs]
  simp [startsWith, hc.1.symm, hc.2.symm]

theorem digit_not_sign {c : UInt8} (hc : isDigit c = true) : c ≠ c!"+" ∧ c ≠ c!"-" := by
  constructor <;> rintro rfl <;> simp [isDigit] at hc

/-- A digit begins a number. -/
theorem number_ne_zero (o : NumberOptions) (ho : DigitBases o) (s : Bytes) (c : UInt8) (t : Bytes)
    (hs : s = c :: t) (hc : isDigit c = true) : (matchCommonNumber s o).length ≠ 0 := by
  obtain ⟨h1, h2, h3⟩ := ho
  apply number_ne_zero_of _ _ (by simp [hs])
  rw [numSign_digit o s c t hs (digit_not_sign hc)]
  simp only [Nat.zero_add, List.drop_zero]
  by_cases hp : (numPrefix o s).1 = 0
  · right
    have hb : isDigitBase c (numPrefix o s).2.1 = true := by
      obtain ⟨a, u, e, hl, h⟩ := numPrefix_spec o s
      rw [hp, List.length_eq_zero_iff] at hl
      subst hl
      rcases h with ⟨_, h, _⟩ | ⟨p, hp, he, _⟩
      · rw [h, hs]
        split
        · rename_i h0
          simp at h0
          subst h0
          by_cases hb : 10 ≤ o.defaultLeadingZeroBase
          · exact isDigitBase_of_digit hc hb
          · simp only [isDigitBase]
            rw [if_pos (by omega)]
            simp
            omega
        · exact isDigitBase_of_digit hc h1
      · exact absurd he (h3 p hp)
    rw [hp, List.drop_zero, C24_longest_run]
    generalize (numPrefix o s).2.1 = b at hb
    simp [hs, hb]
  · exact Or.inl hp

/-- A dot and a digit begin a number. -/
theorem number_ne_zero_dot (o : NumberOptions) (s : Bytes) (c : UInt8) (t : Bytes)
    (ho : ∀ p ∈ o.prefixes, p.str ≠ [] ∧ p.str.head? ≠ some c!".")
    (hs : s = c!"." :: c :: t) (hc : isDigit c = true) : (matchCommonNumber s o).length ≠ 0 := by
  have hsg := numSign_digit o s _ _ hs (by decide)
  have hp : numPrefix o s = (0, (numPrefix o s).2.1, true) := by
    obtain ⟨a, u, e, hl, h⟩ := numPrefix_spec o s
    rcases h with ⟨h0, h, h', _⟩ | ⟨p, hp, he, _⟩
    · subst h0
      rw [← h', show 0 = (numPrefix o s).1 from hl]
    · exfalso
      obtain ⟨h1, h2⟩ := ho p hp
      rw [he] at h1 h2
      rw [hs] at e
      cases a with
      | nil => exact h1 rfl
      | cons a as =>
        simp at e h2
        exact h2 e.1.symm
  by_cases hi : (matchSeparatedDigits s (numPrefix o s).2.1 o.digitSeparator).length = 0
  · unfold matchCommonNumber
    rw [if_neg (by simp [hs])]
    simp only [hsg, List.drop_zero]
    rw [hp]
    dsimp only
    simp only [Nat.add_zero, List.drop_zero, hi]
    split
    · rename_i hf
      have := (numFraction_none hf).2.2
      simp [hs, hc] at this
    · rename_i f hf
      have : f.1 = 1 := by
        unfold numFraction at hf
        simp [hs, hc, startsWith] at hf
        grind
      rw [if_neg (by omega)]
      dsimp only
      omega
  · apply number_ne_zero_of _ _ (by simp [hs])
    right
    rw [hsg, List.drop_zero, hp]
    exact hi
/-! ## Tables -/

/-- The order of a keyword table. -/
def SortedTable {α : Type} (t : List (Bytes × α)) : Prop :=
  t.Pairwise (fun a b => bytesLt a.1 b.1 = true)

instance {α : Type} (t : List (Bytes × α)) : Decidable (SortedTable t) := by
  unfold SortedTable; infer_instance

/-- Looking up a word in a sorted table finds exactly its entry. -/
theorem table_lookup {α : Type} {t : List (Bytes × α)} (ht : SortedTable t) (w : Bytes) (ty : α) :
    (lookupSorted Prod.fst t w).map Prod.snd = some ty ↔ (w, ty) ∈ t := by
  cases h : lookupSorted Prod.fst t w with
  | none =>
    rw [lookupSorted_eq_none _ _ ht] at h
    simp only [Option.map_none, reduceCtorEq, false_iff]
    exact fun hm => h _ hm rfl
  | some e =>
    simp only [Option.map_some, Option.some.injEq]
    constructor
    · rintro rfl
      rw [lookupSorted_eq_some _ _ ht] at h
      rw [← h.2]
      exact h.1
    · intro hm
      have h' := (lookupSorted_eq_some Prod.fst t ht w (w, ty)).2 ⟨hm, rfl⟩
      rw [h] at h'
      cases h'
      rfl

/-- A word that is not in the table is not found. -/
theorem table_lookup_none {α : Type} {t : List (Bytes × α)} (ht : SortedTable t) (w : Bytes) :
    lookupSorted Prod.fst t w = none ↔ ∀ ty, (w, ty) ∉ t := by
  rw [lookupSorted_eq_none _ _ ht]
  constructor
  · exact fun h ty hm => h _ hm rfl
  · rintro h e he rfl
    exact h _ he

theorem bytesLt_append {a b : Bytes} (h : b ≠ []) : bytesLt a (a ++ b) = true := by
  induction a with
  | nil => cases b <;> simp_all [bytesLt]
  | cons c a ih => simp [bytesLt, ih]

/-- The last word of a sorted table that begins a text is the longest one. -/
theorem find_longest {t : List Bytes} (ht : t.Pairwise (fun a b => bytesLt a b = true)) (s : Bytes) :
    match t.reverse.find? (startsWith s ·) with
    | some w => w ∈ t ∧ startsWith s w = true ∧ LongestIn t s w.length
    | none => ∀ w ∈ t, startsWith s w = false := by
  split
  · rename_i w h
    obtain ⟨h1, as, bs, h2, h3⟩ := List.find?_eq_some_iff_append.1 h
    have hw : w ∈ t := by rw [← List.mem_reverse, h2]; simp
    refine ⟨hw, h1, longestIn_of hw h1 ?_⟩
    intro v hv hlt
    cases hsv : startsWith s v with
    | false => rfl
    | true =>
      exfalso
      have hm : v ∈ as ++ w :: bs := by rw [← h2]; simpa using hv
      simp only [List.mem_append, List.mem_cons] at hm
      rcases hm with hm | rfl | hm
      · simpa [hsv] using h3 v hm
      · omega
      · have hp : (as ++ w :: bs).Pairwise (fun a b => bytesLt b a = true) := by
          rw [← h2, List.pairwise_reverse]; exact ht
        have h4 := (List.pairwise_cons.1 (List.pairwise_append.1 hp).2.1).1 v hm
        obtain ⟨x, hx⟩ := startsWith_iff.1 h1
        obtain ⟨y, hy⟩ := startsWith_iff.1 hsv
        have h5 : v = w ++ v.drop w.length := by
          have e1 : s.take w.length = w := by rw [hx]; simp
          have e2 : s.take v.length = v := by rw [hy]; simp
          have e3 : v.take w.length = w := by
            rw [← e2, List.take_take, Nat.min_eq_left (by omega), e1]
          conv => lhs; rw [← List.take_append_drop w.length v, e3]
        have h6 := bytesLt_append (a := w) (b := v.drop w.length) (by
          intro e
          have := congrArg List.length e
          rw [List.length_drop, List.length_nil] at this
          omega)
        rw [← h5, bytesLt_asymm h4] at h6
        cases h6
  · rename_i h
    intro w hw
    have := List.find?_eq_none.1 h w (by simpa using hw)
    simpa using this

/-- The words that begin with `c`, without it. -/
def tailsOf (c : UInt8) : List Bytes → List Bytes
  | [] => []
  | [] :: l => tailsOf c l
  | (x :: w) :: l => if x = c then w :: tailsOf c l else tailsOf c l

theorem find_append_singleton (p : Bytes → Bool) (l : List Bytes) (w : Bytes) :
    (l ++ [w]).find? p = match l.find? p with
      | some v => some v
      | none => if p w = true then some w else none := by
  induction l with
  | nil => simp [List.find?_cons]; cases p w <;> rfl
  | cons a l ih => simp only [List.cons_append, List.find?_cons]; cases p a <;> simp [ih]

/-- The search for a symbol, one character at a time. -/
theorem find_tails (c : UInt8) (t : Bytes) (words : List Bytes) (h : [] ∉ words) :
    words.reverse.find? (startsWith (c :: t) ·) =
      ((tailsOf c words).reverse.find? (startsWith t ·)).map (c :: ·) := by
  induction words with
  | nil => rfl
  | cons w words ih =>
    rw [List.mem_cons, not_or] at h
    rw [List.reverse_cons, find_append_singleton, ih h.2]
    match w with
    | [] => exact absurd rfl h.1
    | x :: w =>
      simp only [tailsOf]
      by_cases hx : x = c
      · subst hx
        rw [if_pos rfl, List.reverse_cons, find_append_singleton, startsWith_cons_cons]
        cases (tailsOf x words).reverse.find? (startsWith t ·) with
        | none => cases startsWith t w <;> simp
        | some v => rfl
      · rw [if_neg hx, startsWith_cons_cons]
        cases (tailsOf c words).reverse.find? (startsWith t ·) with
        | none => simp [hx]
        | some v => rfl

theorem find_startsWith_nil (t : Bytes) (l : List Bytes) :
    ([] :: l).find? (startsWith t ·) = some [] := by simp

theorem find_startsWith_cons (t w : Bytes) (l : List Bytes) :
    (w :: l).find? (startsWith t ·) = if startsWith t w = true then some w else l.find? (startsWith t ·) := by
  rw [List.find?_cons]; cases startsWith t w <;> rfl

/-- The result of the search for a symbol in a table. -/
theorem symbol_facts {α : Type} {tokens : List (Bytes × α)} {symbols : List Bytes}
    (hs : symbols.Pairwise (fun a b => bytesLt a b = true))
    (hw : ∀ w ∈ symbols, ∃ a, (w, a) ∈ tokens) (t : Bytes) :
    (∃ w a, symbols.reverse.find? (startsWith t ·) = some w ∧ (w, a) ∈ tokens ∧ w ∈ symbols ∧
      startsWith t w = true ∧ w.length ≤ t.length ∧ t.take w.length = w ∧ LongestIn symbols t w.length) ∨
    (symbols.reverse.find? (startsWith t ·) = none ∧ ∀ w ∈ symbols, startsWith t w = false) := by
  have := find_longest hs t
  split at this
  · rename_i w h
    obtain ⟨h1, h2, h3⟩ := this
    obtain ⟨a, ha⟩ := hw w h1
    refine Or.inl ⟨w, a, h, ha, h1, h2, startsWith_length h2, ?_, h3⟩
    obtain ⟨u, rfl⟩ := startsWith_iff.1 h2
    simp
  · exact Or.inr ⟨by assumption, this⟩

/-- One case of a function `f` that looks for a symbol. -/
syntax "symbol_case " ident ident : tactic
macro_rules | `(tactic| symbol_case $f $t) => `(tactic| (
  simp [$f:ident, startsWith_cons_cons, tailsOf, find_startsWith_cons, apply_ite (Option.map _)]
  try (rcases $t:ident with _ | ⟨a, _ | ⟨b, _ | ⟨d, _⟩⟩⟩ <;> simp [startsWith_cons_cons] <;> grind)))

/-- All cases of a function `f` that looks for a symbol; `h` says which characters begin a symbol. -/
syntax "symbol_cases " ident ident ident : tactic
macro_rules | `(tactic| symbol_cases $f $t $h) => `(tactic| (
  simp only [List.mem_cons, List.not_mem_nil, or_false] at $h:ident
  repeat' (rcases $h:ident with $h:ident | $h:ident; · (try subst $h:ident); symbol_case $f $t)))

/-- A word has at most one entry. -/
theorem table_unique {α : Type} {t : List (Bytes × α)} (ht : SortedTable t) {w : Bytes} {a b : α}
    (ha : (w, a) ∈ t) (hb : (w, b) ∈ t) : a = b := by
  have ha := (table_lookup ht w a).2 ha
  have hb := (table_lookup ht w b).2 hb
  rw [ha] at hb
  exact Option.some.inj hb


section Hm

variable {σ : Type} {R : Rules} {env : HEnv} {s : HS σ}

theorem wp_emitAdvIf_text {u t : Bytes} {ty : HT} {Q : Unit → HS σ → Prop} (g : Good R env s)
    (hs : s.rem = u ++ t) (ht : ty ≠ .none) (hR : u ≠ [] → R.tok (u ++ t) u.length ty)
    (k : ∀ s', Good R env s' → s'.rem = t → s'.idx = s.idx + u.length → s'.ext = s.ext → Q () s') :
    wp (HM.emitAdvIf u.length ty) Q env s := by
  refine wp_emitAdvIf g (by rw [hs]; simp) ht ?_ ?_
  · intro h
    rw [hs]
    exact hR (List.length_pos_iff.1 h)
  · rintro s' ⟨a, b, c, d⟩
    exact k s' a (by rw [b, hs, List.drop_left]) c d

theorem wp_digitsLoop_text {sep : UInt8} {D : UInt8 → Prop} {Q : Unit → HS σ → Prop}
    (hN : ∀ x y, x ≠ [] → (∀ c ∈ x, D c ∧ c ≠ sep) → R.tok (x ++ y) x.length .number)
    (hD : ∀ y, R.tok (sep :: y) 1 .number_delim) (p ds t : Bytes) (s : HS σ) (g : Good R env s)
    (hs : s.rem = p ++ ds ++ t) (hp : ∀ c ∈ p, D c ∧ c ≠ sep) (hd : ∀ c ∈ ds, D c)
    (k : ∀ s', Good R env s' → s'.rem = t → s'.idx = s.idx + p.length + ds.length →
      s'.ext = s.ext → Q () s') :
    wp (HM.digitsLoop sep p.length ds) Q env s := by
  induction ds generalizing p s with
  | nil =>
    unfold HM.digitsLoop
    exact wp_emitAdvIf_text g (by simpa using hs) (by decide) (fun h => hN _ _ h hp)
      (fun s' a b c d => k s' a b (by simpa using c) d)
  | cons c ds ih =>
    unfold HM.digitsLoop
    split
    · rename_i hc
      subst hc
      simp only [wp_bind]
      refine wp_emitAdvIf_text (u := p) (t := c :: ds ++ t) g (by rw [hs]; simp) (by decide)
        (fun h => hN _ _ h hp) ?_
      intro s1 g1 r1 i1 e1
      refine wp_emitAdv g1 (by omega) (by rw [r1]; simp) (by decide) (by rw [r1]; exact hD _) ?_
      intro s2 g2 r2 i2 e2
      rw [r1] at r2
      refine ih [] s2 g2 (by simpa using r2) (by simp) (fun x hx => hd x (by simp [hx])) ?_
      intro s3 g3 r3 i3 e3
      simp only [List.length_nil] at i3
      exact k s3 g3 r3 (by simp only [List.length_cons]; omega) (by rw [e3, e2, e1])
    · rename_i hc
      have := ih (p ++ [c]) s g (by rw [hs]; simp) (by
        intro x hx
        simp at hx
        rcases hx with hx | rfl
        · exact hp x hx
        · exact ⟨hd x (by simp), hc⟩) (fun x hx => hd x (by simp [hx])) (by
        intro s' a b c d
        simp only [List.length_append, List.length_cons, List.length_nil] at c
        exact k s' a b (by simp only [List.length_cons]; omega) d)
      simpa using this

theorem wp_numberDigits_text {D : UInt8 → Prop} {sep : Option UInt8} {Q : Unit → HS σ → Prop}
    (hsep : sep ≠ some 0)
    (hN : ∀ x y, x ≠ [] → (∀ c ∈ x, D c ∧ sep ≠ some c) → R.tok (x ++ y) x.length .number)
    (hD : ∀ c y, sep = some c → R.tok (c :: y) 1 .number_delim) {u t : Bytes}
    (g : Good R env s) (hs : s.rem = u ++ t) (hd : ∀ c ∈ u, D c)
    (k : ∀ s', Good R env s' → s'.rem = t → s'.idx = s.idx + u.length → s'.ext = s.ext → Q () s') :
    wp (HM.numberDigits u.length sep) Q env s := by
  unfold HM.numberDigits
  split
  · rename_i c
    split
    · unfold HM.highlightDigits
      simp only [wp_bind, wp_hassert, wp_rem]
      refine ⟨by simpa using hsep, by rw [hs]; simp, ?_⟩
      rw [hs, List.take_left]
      refine wp_digitsLoop_text (D := D) ?_ (fun y => hD c y rfl) [] u t s g (by simpa using hs) (by simp) hd ?_
      · intro x y hx h
        exact hN x y hx fun c hc => ⟨(h c hc).1, fun e => (h c hc).2 (Option.some.inj e).symm⟩
      · simpa using k
    · have : u = [] := List.length_eq_zero_iff.1 (by omega)
      subst this
      rw [wp_pure]
      exact k s g (by simpa using hs) (by simp) rfl
  · exact wp_emitAdvIf_text g hs (by decide) (fun h => hN _ _ h fun c hc => ⟨hd c hc, by simp⟩) k

/-- The options of `match_common_number` describe the numbers of the language. -/
structure Fits (o : NumberOptions) (N : Numerals) : Prop where
  decor : ∀ sg ∈ [] :: ((if o.plus then [b!"+"] else []) ++ (if o.minus then [b!"-"] else [])),
    ∀ pr ∈ [] :: o.prefixes.map (·.str), sg ++ pr = [] ∨ sg ++ pr ∈ N.decor
  exps : ∀ e ∈ o.exponentSeparators, e ∈ N.exps
  noEmpty : [] ∉ o.exponentSeparators
  suffixes : ∀ e ∈ o.suffixes, N.suffix e
  matchSuffix : ∀ f, o.matchSuffix = some f → (∀ t, f t ≤ t.length) ∧
    ∀ a t, a ≠ [] → f (a ++ t) = a.length → N.suffix a
  base : 10 ≤ N.base ∧ N.base ≤ 36 ∧ o.defaultBase ≤ N.base ∧ o.defaultLeadingZeroBase ≤ N.base ∧
    ∀ p ∈ o.prefixes, p.base ≤ N.base
  sep : o.digitSeparator = N.sep

theorem digitVal_of_isDigitBase {c : UInt8} {b B : Nat} (h : isDigitBase c b = true) (hb : b ≤ B)
    (hB : B ≤ 36) (hB' : 10 ≤ B) : ∃ v, digitVal c = some v ∧ v < B := by
  unfold isDigitBase at h
  unfold digitVal
  split at h
  · simp [UInt8.le_iff_toNat_le] at h
    rw [if_pos (by omega)]
    exact ⟨_, rfl, by omega⟩
  · simp [isDigit, UInt8.le_iff_toNat_le] at h
    rcases h with (h | h) | h
    · rw [if_pos (by omega)]
      exact ⟨_, rfl, by omega⟩
    · rw [if_neg (by omega), if_pos (by omega)]
      exact ⟨_, rfl, by omega⟩
    · rw [if_neg (by omega), if_neg (by omega), if_pos (by omega)]
      exact ⟨_, rfl, by omega⟩

theorem Fits.digits {o : NumberOptions} {N : Numerals} (h : Fits o N) {b : Nat} (hb : b ≤ N.base)
    {c : UInt8} (hc : NumDigit o b c) : N.Digits c := by
  rcases hc with hc | ⟨h0, hc⟩
  · exact Or.inl (digitVal_of_isDigitBase hc hb h.base.2.1 h.base.1)
  · exact Or.inr ⟨by rwa [← h.sep], by rw [hc, h.sep]⟩

/-- The parts that were matched are parts of a number of the language. -/
theorem Fits.parts {o : NumberOptions} {N : Numerals} (h : Fits o N) {s : Bytes} {r : NumberResult}
    {p : NumberParts} (hp : PartsOf o s r p) : N.Parts p := by
  obtain ⟨base, hb, hi, hf⟩ := hp.digitsOk
  obtain ⟨_, _, hb1, hb2, hb3⟩ := h.base
  have hb' : base ≤ N.base := by
    rcases hb with ⟨_, rfl | rfl⟩ | ⟨q, hq, _, rfl⟩
    · exact hb1
    · exact hb2
    · exact hb3 q hq
  constructor
  · refine h.decor p.sign ?_ p.pre ?_
    · rcases hp.signOk with h | ⟨h, h'⟩ | ⟨h, h'⟩ <;> simp [*]
    · rcases hb with ⟨h, _⟩ | ⟨q, hq, h, _⟩
      · simp [h]
      · exact List.mem_cons_of_mem _ (List.mem_map.2 ⟨q, hq, h⟩)
  · exact fun c hc => h.digits hb' (hi c hc)
  · rcases hp.pointOk with h | h
    · exact Or.inl h.1
    · exact Or.inr h
  · exact fun c hc => h.digits hb' (hf c hc)
  · rcases hp.expOk with h' | h'
    · exact Or.inl h'.1
    · exact Or.inr (h.exps _ h')
  · intro c hc
    have := hp.expDigitsOk c hc
    rw [← isDigit_iff]
    simp [isDigitBase, isDigit, UInt8.le_iff_toNat_le] at this ⊢
    omega
  · by_cases h0 : p.suffix = []
    · exact Or.inl h0
    · right
      rcases hp.suffixOk with h' | h' | ⟨f, hf, t, h'⟩
      · exact absurd h' h0
      · exact h.suffixes _ h'
      · exact (h.matchSuffix f hf).2 _ t h0 h'

theorem decDigit_digits {N : Numerals} (hN : 10 ≤ N.base) {c : UInt8} (h : DecDigit c) :
    N.Digits c := by
  left
  unfold Numerals.Digit digitVal
  obtain ⟨h1, h2⟩ := h
  rw [if_pos (by omega)]
  exact ⟨_, rfl, by omega⟩

/-- The lengths of the parts of a number. -/
structure LengthsOf (r : NumberResult) (p : NumberParts) : Prop where
  sign : r.sign = p.sign.length
  pre : r.pre = p.pre.length
  integer : r.integer = p.integer.length
  point : r.radixPoint = p.point.length
  fraction : r.fractional = p.fraction.length
  expSep : r.exponentSep = p.expSep.length
  expDigits : r.exponentDigits = p.expDigits.length
  suffix : r.suffix = p.suffix.length
  length : r.length = p.text.length
  nonempty : 0 < r.length

theorem PartsOf.lengths {o : NumberOptions} {s : Bytes} {r : NumberResult} {p : NumberParts}
    (h : PartsOf o s r p) : LengthsOf r p :=
  ⟨h.sign, h.pre, h.integer, h.point, h.fraction, h.expSep, h.expDigits, h.suffix, h.length, h.nonempty⟩

/-- Highlighting a text in parts. -/
theorem wp_number_parts {r : NumberResult} {p : NumberParts} {rest : Bytes} {D : UInt8 → Prop}
    {sep : Option UInt8} {Q : Unit → HS σ → Prop} (hsep : sep ≠ some 0)
    (hN : ∀ x y, x ≠ [] → (∀ c ∈ x, D c ∧ sep ≠ some c) → R.tok (x ++ y) x.length .number)
    (hD : ∀ c y, sep = some c → R.tok (c :: y) 1 .number_delim)
    (hl : LengthsOf r p) (ht : s.rem = p.text ++ rest)
    (hE : r.erroneous = true → R.tok s.rem r.length .error)
    (decor : p.sign ++ p.pre ≠ [] → ∀ y, R.tok (p.sign ++ p.pre ++ y) (p.sign ++ p.pre).length .number_decor)
    (integer : ∀ c ∈ p.integer, D c)
    (point : p.point ≠ [] → ∀ y, R.tok (p.point ++ y) p.point.length .number_delim)
    (fraction : ∀ c ∈ p.fraction, D c)
    (expSep : p.expSep ≠ [] → ∀ y, R.tok (p.expSep ++ y) p.expSep.length .number_delim)
    (expDigits : ∀ c ∈ p.expDigits, D c)
    (suffix : p.suffix ≠ [] → ∀ y, R.tok (p.suffix ++ y) p.suffix.length .number_decor)
    (g : Good R env s)
    (k : ∀ s', Good R env s' → s'.idx + s'.rem.length = env.src.length →
      s'.rem = s.rem.drop r.length → s'.idx = s.idx + r.length → s'.ext = s.ext → Q () s') :
    wp (HM.highlightNumber r sep) Q env s := by
  have h0 := hl.length
  unfold HM.highlightNumber
  split
  · rename_i he
    exact wp_emitAdv g hl.nonempty (by rw [ht, h0]; simp) (by decide) (hE he)
      fun s' a b c d => k s' a a.len b c d
  · have k' : ∀ s', Good R env s' → s'.rem = rest → s'.idx = s.idx + p.text.length → s'.ext = s.ext →
        Q () s' := fun s' a b c d => k s' a a.len (by rw [b, ht, h0, List.drop_left]) (by rw [c, h0]) d
    rw [hl.sign, hl.pre, hl.integer, hl.point, hl.fraction, hl.expSep, hl.expDigits, hl.suffix,
      ← List.length_append]
    simp only [NumberParts.text, List.append_assoc] at ht
    simp only [NumberParts.text, List.length_append] at k'
    rw [← List.append_assoc] at ht
    simp only [wp_bind]
    refine wp_emitAdvIf_text g ht (by decide) (fun h => decor h _) ?_
    intro s1 g1 r1 i1 e1
    refine wp_numberDigits_text hsep hN hD g1 r1 integer ?_
    intro s2 g2 r2 i2 e2
    refine wp_emitAdvIf_text g2 r2 (by decide) (fun h => point h _) ?_
    intro s3 g3 r3 i3 e3
    refine wp_numberDigits_text hsep hN hD g3 r3 fraction ?_
    intro s4 g4 r4 i4 e4
    refine wp_emitAdvIf_text g4 r4 (by decide) (fun h => expSep h _) ?_
    intro s5 g5 r5 i5 e5
    refine wp_numberDigits_text hsep hN hD g5 r5 expDigits ?_
    intro s6 g6 r6 i6 e6
    refine wp_emitAdvIf_text g6 r6 (by decide) (fun h => suffix h _) ?_
    intro s7 g7 r7 i7 e7
    simp only [List.length_append] at i1
    exact k' s7 g7 r7 (by omega) (by rw [e7, e6, e5, e4, e3, e2, e1])

/-- Highlighting a number; `hE` says why it may be an error. -/
theorem wp_number_tok {r : NumberResult} {p : NumberParts} {rest : Bytes} {N : Numerals} {sep : Option UInt8}
    {Q : Unit → HS σ → Prop} (hsep : ∀ c, sep = some c → c = N.sep ∧ c ≠ 0) (hb : 10 ≤ N.base)
    (hR : ∀ s n ty, NumberTok N sep.isSome s n ty → R.tok s n ty)
    (hP : N.Parts p) (hl : LengthsOf r p) (ht : s.rem = p.text ++ rest)
    (hE : r.erroneous = true → R.tok s.rem r.length .error) (g : Good R env s)
    (k : ∀ s', Good R env s' → s'.idx + s'.rem.length = env.src.length →
      s'.rem = s.rem.drop r.length → s'.idx = s.idx + r.length → s'.ext = s.ext → Q () s') :
    wp (HM.highlightNumber r sep) Q env s := by
  refine wp_number_parts (D := N.Digits) (p := p) ?_ ?_ ?_ hl ht ?_ ?_ hP.integer ?_ hP.fraction ?_ ?_ ?_ g k
  · intro h
    exact (hsep _ h).2 rfl
  · intro x y hx h
    refine hR _ _ _ (.digits ?_ ?_) <;> rw [List.take_left]
    · exact fun c hc => (h c hc).1
    · intro hs c hc
      obtain ⟨d, rfl⟩ := Option.isSome_iff_exists.1 hs
      rw [← (hsep d rfl).1]
      exact fun e => (h c hc).2 (by rw [e])
  · intro c y h
    refine hR _ _ _ (.separator (by simp [h]) (by simp [(hsep c h).1]))
  · exact hE
  · intro h y
    exact hR _ _ _ (.decor (by rw [List.take_left]; exact hP.decor.resolve_left h))
  · intro h y
    exact hR _ _ _ (.point (by rw [List.take_left]; exact hP.point.resolve_left h))
  · intro h y
    exact hR _ _ _ (.exponent (by rw [List.take_left]; exact hP.expSep.resolve_left h))
  · exact fun c hc => decDigit_digits hb (hP.expDigits c hc)
  · intro h y
    exact hR _ _ _ (.suffix (by rw [List.take_left]; exact hP.suffix.resolve_left h))

/-- Highlighting a number. -/
theorem wp_number_of {r : NumberResult} {p : NumberParts} {rest : Bytes} {N : Numerals} {sep : Option UInt8}
    {Q : Unit → HS σ → Prop} (hsep : ∀ c, sep = some c → c = N.sep ∧ c ≠ 0) (hb : 10 ≤ N.base)
    (hR : ∀ s n ty, NumberTok N sep.isSome s n ty → R.tok s n ty)
    (hP : N.Parts p) (hl : LengthsOf r p) (ht : s.rem = p.text ++ rest)
    (hE : r.erroneous = true → p.Malformed N.sep) (g : Good R env s)
    (k : ∀ s', Good R env s' → s'.idx + s'.rem.length = env.src.length →
      s'.rem = s.rem.drop r.length → s'.idx = s.idx + r.length → s'.ext = s.ext → Q () s') :
    wp (HM.highlightNumber r sep) Q env s := by
  refine wp_number_tok hsep hb hR hP hl ht ?_ g k
  intro he
  refine hR _ _ _ (.error (p := p) ?_ hP (hE he))
  rw [ht, hl.length, List.take_left]

/-- Highlighting a number that was matched. -/
theorem wp_number {o : NumberOptions} {N : Numerals} {sep : Option UInt8} {Q : Unit → HS σ → Prop}
    (hsep : ∀ c, sep = some c → c = N.sep ∧ c ≠ 0) (hf : Fits o N)
    (hR : ∀ s n ty, NumberTok N sep.isSome s n ty → R.tok s n ty)
    (g : Good R env s) (h0 : ¬ (matchCommonNumber s.rem o).length = 0)
    (k : ∀ s', Good R env s' → s'.idx + s'.rem.length = env.src.length →
      s'.rem = s.rem.drop (matchCommonNumber s.rem o).length →
      s'.idx = s.idx + (matchCommonNumber s.rem o).length → s'.ext = s.ext → Q () s') :
    wp (HM.highlightNumber (matchCommonNumber s.rem o) sep) Q env s := by
  rcases C23_parts s.rem o (fun f h => (hf.matchSuffix f h).1) with h | ⟨p, hp⟩
  · rw [h] at h0
    exact absurd rfl h0
  obtain ⟨rest, ht⟩ := hp.text
  refine wp_number_of hsep hf.base.1 hR (hf.parts hp) hp.lengths ht ?_ g k
  rw [← hf.sep]
  exact hp.reason hf.noEmpty

/-- Highlighting enclosed text that was matched. -/
theorem wp_enclosed {pre suf : Bytes} {content delim : HT} {Q : Unit → HS σ → Prop}
    (hp : pre ≠ []) (hq : suf ≠ []) (hc : content ≠ .none) (hd : delim ≠ .none)
    (hP : ∀ t, R.tok (pre ++ t) pre.length delim) (hS : ∀ t, R.tok (suf ++ t) suf.length delim)
    (hC : ∀ t n, UpTo suf t n → R.tok t n content)
    (g : Good R env s) (h0 : ¬ (matchEnclosed s.rem pre suf).length = 0)
    (k : ∀ s', Good R env s' → s'.idx + s'.rem.length = env.src.length →
      s'.rem = s.rem.drop (matchEnclosed s.rem pre suf).length →
      s'.idx = s.idx + (matchEnclosed s.rem pre suf).length → s'.ext = s.ext → Q () s') :
    wp (HM.highlightEnclosed (matchEnclosed s.rem pre suf) pre.length suf.length content delim)
      Q env s := by
  have hp' := List.length_pos_iff.2 hp
  have hq' := List.length_pos_iff.2 hq
  have k' : ∀ s', Consumes R env s (matchEnclosed s.rem pre suf).length s' → Q () s' :=
    fun s' c => k s' c.1 c.1.len c.2.1 c.2.2.1 c.2.2.2
  rcases matchEnclosed_spec s.rem pre suf with ⟨_, h⟩ | ⟨body, rest, hs, hb, h⟩ | ⟨body, hs, hb, h⟩
  · simp [h] at h0
  · have hl := congrArg List.length hs
    simp at hl
    refine wp_highlightEnclosed g hp' hq' (by rw [h]; simp only; omega) (by rw [h]; simp only; omega)
      (by rw [h]; simp only; omega) hc hd ?_ ?_ ?_ k'
    · rw [hs, List.append_assoc, List.append_assoc]
      exact hP _
    · rw [h]
      intro n h1 h2 h3
      simp only [if_true] at h3
      rw [hs, List.append_assoc, List.append_assoc, List.drop_left,
        show n = body.length by omega]
      exact hC _ _ ⟨by simpa using hb, Or.inr ⟨body, rest, by simp, rfl⟩⟩
    · rw [h]
      intro _
      simp only
      rw [show pre.length + body.length + suf.length - suf.length = pre.length + body.length by omega,
        hs, List.append_assoc, List.drop_left' (by simp)]
      exact hS _
  · have hl := congrArg List.length hs
    simp at hl
    refine wp_highlightEnclosed g hp' hq' (by rw [h]; simp only; omega) (by rw [h]; simp only; omega)
      (by rw [h]; simp) hc hd ?_ ?_ (by rw [h]; simp) k'
    · rw [hs]
      exact hP _
    · rw [h]
      intro n h1 h2 h3
      simp only [Bool.false_eq_true, if_false] at h3
      rw [hs, List.drop_left, show n = body.length by omega]
      exact hC _ _ ⟨fun k hk => absurd hk (hb k), Or.inl rfl⟩

end Hm

end Ulight
