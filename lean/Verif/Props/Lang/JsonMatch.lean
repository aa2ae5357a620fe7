import Verif.Lang.Json
import Verif.Spec.Lang.Json
import Verif.Props.Escapes
import Verif.Hl.Scan

/-!
# The matching functions of JSON
-/

namespace Ulight.Json

open Spec Spec.Json

theorem digit_iff (c : UInt8) : isDigit c = true ↔ Digit c := by
  simp only [isDigit, Digit, Bool.and_eq_true, decide_eq_true_eq, UInt8.le_iff_toNat_le]
  grind

theorem hex_iff (c : UInt8) : isHexDigit c = true ↔ HexDigit c := by
  rw [isHexDigit_iff]
  rfl

theorem matchDigits_eq (s : Bytes) : matchDigits s = (s.takeWhile isDigit).length := by
  simpa [matchDigits] using Ascii.length_if_start s isDigit 0 (by simp)

theorem matchWhitespace_eq (s : Bytes) : matchWhitespace s = (s.takeWhile isWhitespace).length := by
  simpa [matchWhitespace] using Ascii.length_if_start s isWhitespace 0 (by simp)

/-- The text splits into the digits at its beginning and the rest. -/
theorem digits_split (s : Bytes) : ∃ ds t, s = ds ++ t ∧ matchDigits s = ds.length ∧
    (∀ c ∈ ds, Digit c) ∧ (∀ c, t.head? = some c → ¬ Digit c) := by
  refine ⟨s.takeWhile isDigit, s.dropWhile isDigit, (List.takeWhile_append_dropWhile).symm,
    matchDigits_eq s, ?_, ?_⟩
  · intro c hc
    exact (digit_iff c).1 (List.all_eq_true.1 (List.all_takeWhile (p := isDigit) (l := s)) c hc)
  · intro c hc h
    have := List.head?_dropWhile_not isDigit s
    rw [hc] at this
    simp [(digit_iff c).2 h] at this

theorem matchDigits_append (ds t : Bytes) (h : ∀ c ∈ ds, Digit c)
    (ht : ∀ c, t.head? = some c → ¬ Digit c) : matchDigits (ds ++ t) = ds.length := by
  rw [matchDigits_eq, List.takeWhile_append_of_pos (fun c hc => (digit_iff c).2 (h c hc))]
  cases t with
  | nil => simp
  | cons c t =>
    have : isDigit c = false := by
      have := ht c rfl
      rw [← digit_iff] at this
      simpa using this
    simp [this]

/-- The fraction. -/
theorem matchFraction_spec (s : Bytes) :
    ∃ f t, s = f ++ t ∧ (matchFraction s).1 = f.length ∧ ((matchFraction s).2 = false → Frac f) := by
  unfold matchFraction
  split
  · rename_i c t
    split
    · rename_i hc
      subst hc
      obtain ⟨ds, t, rfl, h1, h2, h3⟩ := digits_split t
      refine ⟨c!"." :: ds, t, by simp, by simp [h1], ?_⟩
      intro h
      simp [h1] at h
      exact Or.inr ⟨ds, rfl, h, h2⟩
    · exact ⟨[], c :: t, rfl, rfl, fun _ => Or.inl rfl⟩
  · exact ⟨[], [], rfl, rfl, fun _ => Or.inl rfl⟩

/-- The exponent. -/
theorem matchExponent_spec (s : Bytes) :
    ∃ f t, s = f ++ t ∧ (matchExponent s).1 = f.length ∧ ((matchExponent s).2 = false → Exp f) := by
  unfold matchExponent
  split
  · rename_i c t
    split
    · rename_i hc
      have key : ∀ sign t', sign ∈ [[], b!"+", b!"-"] → t = sign ++ t' →
          (if startsWith t b!"+" || startsWith t b!"-" then 1 else 0) = sign.length →
          ∃ f r, c :: t = f ++ r ∧
            (1 + sign.length + matchDigits (t.drop sign.length)) = f.length ∧
            ((matchDigits (t.drop sign.length) == 0) = false → Exp f) := by
        rintro sign t' hs rfl _
        obtain ⟨ds, t, rfl, h1, h2, h3⟩ := digits_split t'
        refine ⟨c :: (sign ++ ds), t, by simp, by simp [h1]; omega, ?_⟩
        intro h
        simp [h1] at h
        exact Or.inr ⟨c, sign, ds, rfl, by simpa using hc, hs, h, h2⟩
      by_cases h1 : startsWith t b!"+" = true
      · obtain ⟨t', rfl⟩ := startsWith_iff.1 h1
        have := key b!"+" t' (by simp) rfl (by simp)
        simpa using this
      · by_cases h2 : startsWith t b!"-" = true
        · obtain ⟨t', rfl⟩ := startsWith_iff.1 h2
          have := key b!"-" t' (by simp) rfl (by simp)
          simpa using this
        · have := key [] t (by simp) rfl (by simp [h1, h2])
          simpa [h1, h2] using this
    · exact ⟨[], c :: t, rfl, rfl, fun _ => Or.inl rfl⟩
  · exact ⟨[], [], rfl, rfl, fun _ => Or.inl rfl⟩

/-- What `match_number` returns is a prefix, and a number unless it is marked as erroneous. -/
theorem matchNumber_spec (s : Bytes) :
    (matchNumber s).length ≤ s.length ∧
    (matchNumber s).integer + (matchNumber s).fraction + (matchNumber s).exponent =
      (matchNumber s).length ∧
    ((matchNumber s).length ≠ 0 → (matchNumber s).erroneous = false →
      Number (s.take (matchNumber s).length)) := by
  have key : ∀ minus s1, minus ∈ [[], b!"-"] → s = minus ++ s1 →
      (if startsWith s b!"-" then 1 else 0) = minus.length →
      ∃ u t, s = u ++ t ∧ (matchNumber s).length = u.length ∧
        (matchNumber s).integer + (matchNumber s).fraction + (matchNumber s).exponent = u.length ∧
        ((matchNumber s).length ≠ 0 → (matchNumber s).erroneous = false → Number u) := by
    intro minus s1 hm hs hl
    unfold matchNumber
    simp only [hl]
    have hs1 : s.drop minus.length = s1 := by simp [hs]
    rw [hs1]
    obtain ⟨ds, s2, rfl, h1, h2, h3⟩ := digits_split s1
    simp only [h1, List.drop_left]
    obtain ⟨f, s3, rfl, g1, g2⟩ := matchFraction_spec s2
    simp only [g1, List.drop_left]
    obtain ⟨e, s4, rfl, e1, e2⟩ := matchExponent_spec s3
    simp only [e1]
    refine ⟨minus ++ ds ++ f ++ e, s4, by simp [hs], by simp; omega, by simp; omega, ?_⟩
    intro hne her
    have hz : (minus.length + ds.length + f.length + e.length != 0) = true := by simpa using hne
    rw [hz] at her
    simp only [Bool.and_true, Bool.or_eq_false_iff] at her
    obtain ⟨⟨⟨h4, h5⟩, h6⟩, h7⟩ := her
    refine ⟨minus, ds, f, e, rfl, hm, ⟨⟨by simpa using h4, h2⟩, ?_⟩, g2 h6, e2 h7⟩
    intro h0
    match ds, h0 with
    | d :: ds, h0 =>
      simp at h0
      subst h0
      have : startsWith (c!"0" :: ds ++ (f ++ (e ++ s4))) b!"0" = true :=
        startsWith_iff.2 ⟨ds ++ (f ++ (e ++ s4)), by simp⟩
      rw [this] at h5
      simp at h5
      match ds, h5 with
      | [], _ => rfl
  have : ∃ u t, s = u ++ t ∧ (matchNumber s).length = u.length ∧
        (matchNumber s).integer + (matchNumber s).fraction + (matchNumber s).exponent = u.length ∧
        ((matchNumber s).length ≠ 0 → (matchNumber s).erroneous = false → Number u) := by
    by_cases h : startsWith s b!"-" = true
    · obtain ⟨t, ht⟩ := startsWith_iff.1 h
      exact key b!"-" t (by simp) ht (by simp [h])
    · exact key [] s (by simp) rfl (by simp [h])
  obtain ⟨u, t, h1, h2, h3, h4⟩ := this
  refine ⟨by rw [h2, h1]; simp, by rw [h3, h2], ?_⟩
  intro ha hb
  have := h4 ha hb
  rw [h2, h1]
  simpa using this

/-- Text that may follow a number. -/
def AfterNumber (r : Bytes) : Prop :=
  ∀ c, r.head? = some c → ¬ Digit c ∧ c ≠ c!"." ∧ c ≠ c!"e" ∧ c ≠ c!"E"

theorem matchExponent_append {e r : Bytes} (he : Exp e) (hr : AfterNumber r) :
    matchExponent (e ++ r) = (e.length, false) := by
  rcases he with rfl | ⟨c, sign, ds, rfl, hc, hs, hd⟩
  · cases r with
    | nil => rfl
    | cons c r =>
      obtain ⟨h1, h2, h3, h4⟩ := hr c rfl
      simp [matchExponent, h3, h4]
  · have hd0 : ∀ c, (ds ++ r).head? = some c → c ≠ c!"+" ∧ c ≠ c!"-" := by
      intro c hc
      match ds, hd.1, hd.2 with
      | d :: ds, _, h =>
        simp at hc
        have := h d (by simp)
        subst hc
        constructor
        · rintro rfl; revert this; decide
        · rintro rfl; revert this; decide
    have hm : matchDigits (ds ++ r) = ds.length :=
      matchDigits_append ds r hd.2 fun c hc => (hr c hc).1
    have hn : ds.length ≠ 0 := by simpa using hd.1
    have hsw : ∀ d : UInt8, (d = c!"+" ∨ d = c!"-") → startsWith (ds ++ r) [d] = false := by
      intro d h
      cases h' : startsWith (ds ++ r) [d] with
      | false => rfl
      | true =>
        obtain ⟨t, ht⟩ := startsWith_iff.1 h'
        rw [ht] at hd0
        have := hd0 d rfl
        grind
    have hc' : c = c!"e" ∨ c = c!"E" := by simpa using hc
    simp at hs
    simp only [List.cons_append, matchExponent, hc', if_true]
    rcases hs with rfl | rfl | rfl
    · simp [hsw c!"+" (Or.inl rfl), hsw c!"-" (Or.inr rfl), hm, hd.1]
      omega
    · simp [startsWith, hm, hd.1]
      omega
    · simp [startsWith, hm, hd.1]
      omega

theorem matchFraction_append {f t : Bytes} (hf : Frac f)
    (ht : ∀ c, t.head? = some c → ¬ Digit c ∧ c ≠ c!".") :
    matchFraction (f ++ t) = (f.length, false) := by
  rcases hf with rfl | ⟨ds, rfl, hd⟩
  · cases t with
    | nil => rfl
    | cons c r =>
      obtain ⟨h1, h2⟩ := ht c rfl
      simp [matchFraction, h2]
  · have hm : matchDigits (ds ++ t) = ds.length :=
      matchDigits_append ds t hd.2 fun c hc => (ht c hc).1
    simp [matchFraction, hm, hd.1]

/-- A number followed by something else is matched completely. -/
theorem matchNumber_append {u r : Bytes} (hu : Number u) (hr : AfterNumber r) :
    (matchNumber (u ++ r)).length = u.length ∧ (matchNumber (u ++ r)).erroneous = false ∧
      u ≠ [] := by
  obtain ⟨minus, ds, f, e, rfl, hm, ⟨⟨hd0, hd⟩, hz⟩, hf, he⟩ := hu
  have hme := matchExponent_append he hr
  have her : ∀ c, (e ++ r).head? = some c → ¬ Digit c ∧ c ≠ c!"." := by
    intro c hc
    rcases he with rfl | ⟨x, sign, ds, rfl, hx, _⟩
    · exact ⟨(hr c hc).1, (hr c hc).2.1⟩
    · simp at hc
      subst hc
      simp at hx
      rcases hx with rfl | rfl <;> decide
  have hmf := matchFraction_append hf her
  have hfr : ∀ c, (f ++ (e ++ r)).head? = some c → ¬ Digit c := by
    intro c hc
    rcases hf with rfl | ⟨ds, rfl, hd⟩
    · exact (her c hc).1
    · simp at hc
      subst hc
      decide
  have hmd := matchDigits_append ds (f ++ (e ++ r)) hd hfr
  have hnm : startsWith (ds ++ (f ++ (e ++ r))) b!"-" = false := by
    match ds, hd0, hd with
    | d :: ds, _, h =>
      have := h d (by simp)
      cases h' : startsWith (d :: ds ++ (f ++ (e ++ r))) b!"-" with
      | false => rfl
      | true =>
        obtain ⟨t, ht⟩ := startsWith_iff.1 h'
        simp at ht
        rw [ht.1] at this
        revert this
        decide
  have hz' : (decide (ds.length ≥ 2) && startsWith (ds ++ (f ++ (e ++ r))) b!"0") = false := by
    cases h : startsWith (ds ++ (f ++ (e ++ r))) b!"0" with
    | false => simp
    | true =>
      obtain ⟨t, ht⟩ := startsWith_iff.1 h
      match ds, hd0, hz with
      | d :: ds, _, hz =>
        simp at ht
        have := hz (by simp [ht.1])
        simp [this]
  have hd0' : ds.length ≠ 0 := by simpa using hd0
  have main : ∀ m, (if startsWith (m ++ (ds ++ (f ++ (e ++ r)))) b!"-" then 1 else 0) = m.length →
      (matchNumber (m ++ (ds ++ (f ++ (e ++ r))))).length = m.length + ds.length + f.length + e.length ∧
      (matchNumber (m ++ (ds ++ (f ++ (e ++ r))))).erroneous = false := by
    intro m h
    unfold matchNumber
    simp only [h, List.drop_left, hmd, hmf, hme, hz']
    simp [hd0]
  have e1 : minus ++ ds ++ f ++ e ++ r = minus ++ (ds ++ (f ++ (e ++ r))) := by simp
  rw [e1]
  simp at hm
  have hm' := main minus (by
    rcases hm with rfl | rfl
    · simp [hnm]
    · simp [startsWith])
  exact ⟨by rw [hm'.1]; simp; omega, hm'.2, by simp [hd0]⟩

/-- Escape sequences never reach the unreachable code. -/
theorem matchEscape_ok' (s : Bytes) (parse : Bool) :
    ∃ e, matchEscapeSequence s parse = .ok e ∧ e.length ≤ s.length ∧
      (e.length ≠ 0 → e.value ≠ none → EscapeSeq (s.take e.length)) := by
  unfold matchEscapeSequence
  split
  · rename_i a b t
    by_cases hab : a ≠ c!"\\" ∨ (!isEscapable b) = true
    · rw [if_pos hab]
      exact ⟨_, rfl, by simp, by simp⟩
    · rw [if_neg hab]
      have ha : a = c!"\\" := by grind
      have hb : isEscapable b = true := by grind
      subst ha
      simp only
      have hs : ∀ v : Nat, b ∈ b!"\"\\/bfnrt" → ∃ e : EscapeResult,
          (Except.ok ⟨2, some (if parse = true then v else 0)⟩ : Except Fault EscapeResult) = .ok e ∧
          e.length ≤ (c!"\\" :: b :: t).length ∧
          (e.length ≠ 0 → e.value ≠ none → EscapeSeq ((c!"\\" :: b :: t).take e.length)) := by
        intro v hv
        exact ⟨_, rfl, by simp, fun _ _ => by simpa using EscapeSeq.simple hv⟩
      simp [isEscapable] at hb
      rcases hb with rfl | rfl | rfl | rfl | rfl | rfl | rfl | rfl | rfl
      all_goals try exact hs _ (by decide)
      have hb4 := C28_bounds .hex_4 t
      simp only [show (117 : UInt8) ≠ 34 by decide, show (117 : UInt8) ≠ 92 by decide,
        show (117 : UInt8) ≠ 47 by decide, show (117 : UInt8) ≠ 98 by decide,
        show (117 : UInt8) ≠ 102 by decide, show (117 : UInt8) ≠ 110 by decide,
        show (117 : UInt8) ≠ 114 by decide, show (117 : UInt8) ≠ 116 by decide, if_true, if_false]
      cases he : (matchCommonEscapeAt .hex_4 (92 :: 117 :: t) 2).erroneous with
      | true =>
        refine ⟨_, rfl, ?_, by simp⟩
        simp [matchCommonEscapeAt]
        omega
      | false =>
        have hp : ∀ e : EscapeResult, e.length = (matchCommonEscapeAt .hex_4 (92 :: 117 :: t) 2).length →
            ∃ e', (Except.ok e : Except Fault EscapeResult) = .ok e' ∧
              e'.length ≤ (c!"\\" :: c!"u" :: t).length ∧ (e'.length ≠ 0 → e'.value ≠ none →
                EscapeSeq ((c!"\\" :: c!"u" :: t).take e'.length)) := by
          intro e hl
          refine ⟨e, rfl, by rw [hl]; simp [matchCommonEscapeAt]; omega, fun _ _ => ?_⟩
          rw [hl]
          have h := (C28_unbraced .hex_4 (by rintro (h | h | h) <;> cases h) t).1
            (by simpa [matchCommonEscapeAt] using he)
          simp only [matchCommonEscapeAt,
            List.drop_succ_cons, List.drop_zero, List.take_succ_cons]
          exact .unicode h.1 fun c hc => (hex_iff c).1 ((isHexDigit_iff c).2 (h.2 c hc))
        cases parse with
        | false => exact hp _ rfl
        | true => exact hp _ rfl
  · exact ⟨_, rfl, by simp, by simp⟩

theorem matchEscape_ok (s : Bytes) :
    ∃ e, matchEscapeSequence s false = .ok e ∧ e.length ≤ s.length ∧
      (e.length ≠ 0 → e.value ≠ none → EscapeSeq (s.take e.length)) := matchEscape_ok' s false

/-- A valid escape sequence is matched completely. -/
theorem matchEscape_append {u : Bytes} (r : Bytes) (hu : EscapeSeq u) :
    ∃ v, matchEscapeSequence (u ++ r) false = .ok ⟨u.length, some v⟩ := by
  cases hu with
  | simple h =>
    simp at h
    rcases h with rfl | rfl | rfl | rfl | rfl | rfl | rfl | rfl <;>
      exact ⟨0, by simp [matchEscapeSequence, isEscapable]⟩
  | @unicode ds h hex =>
    have h2 : ds.all isHexDigit = true := by
      rw [List.all_eq_true]
      exact fun c hc => (hex_iff c).2 (hex c hc)
    refine ⟨0, ?_⟩
    simp [matchEscapeSequence, isEscapable, matchCommonEscapeAt, matchCommonEscape,
      matchCommonEscape.fixed, h, h2]

/-- `match_identifier` returns the length of a prefix. -/
theorem matchIdentifier_spec (s : Bytes) :
    (matchIdentifier s).1 ≤ s.length ∧
    ((matchIdentifier s).2 = .null → s.take (matchIdentifier s).1 = b!"null") ∧
    ((matchIdentifier s).2 = .true_ → s.take (matchIdentifier s).1 = b!"true") ∧
    ((matchIdentifier s).2 = .false_ → s.take (matchIdentifier s).1 = b!"false") := by
  unfold matchIdentifier
  split
  · simp
  · rename_i c t
    split
    · simp
    · have h := Ascii.length_if_start (c :: t) isAlnum 1 (by simp)
      simp only [List.drop_succ_cons, List.drop_zero] at h
      simp only [h]
      refine ⟨?_, ?_⟩
      · have := (List.takeWhile_prefix isAlnum (l := t)).length_le
        simp
        omega
      · refine ⟨?_, ?_, ?_⟩ <;> grind

/-- `match_identifier` on a literal. -/
theorem matchIdentifier_append {u r : Bytes} (hu : u ∈ [b!"true", b!"false", b!"null"])
    (hr : ∀ c, r.head? = some c → isAlnum c = false) :
    matchIdentifier (u ++ r) = (u.length, if u = b!"null" then .null else if u = b!"true" then .true_
        else .false_) := by
  have ht : r.takeWhile isAlnum = [] := by
    cases r with
    | nil => rfl
    | cons c r => simp [hr c rfl]
  have key : ∀ c v, isAlpha c = true → (∀ d ∈ v, isAlnum d = true) →
      Ascii.length_if ((c :: v) ++ r) isAlnum 1 = (c :: v).length := by
    intro c v _ hv
    have h := Ascii.length_if_start ((c :: v) ++ r) isAlnum 1 (by simp)
    simp only [List.cons_append, List.drop_succ_cons, List.drop_zero] at h
    rw [List.takeWhile_append_of_pos hv, ht] at h
    simp only [List.cons_append, h, List.append_nil, List.length_cons]
    omega
  simp at hu
  rcases hu with rfl | rfl | rfl
  · have := key c!"t" b!"rue" (by decide) (by decide)
    simp only [List.cons_append, List.nil_append, List.length_cons, List.length_nil] at this
    simp [matchIdentifier, this, show isAlpha 116 = true by decide]
  · have := key c!"f" b!"alse" (by decide) (by decide)
    simp only [List.cons_append, List.nil_append, List.length_cons, List.length_nil] at this
    simp [matchIdentifier, this, show isAlpha 102 = true by decide]
  · have := key c!"n" b!"ull" (by decide) (by decide)
    simp only [List.cons_append, List.nil_append, List.length_cons, List.length_nil] at this
    simp [matchIdentifier, this, show isAlpha 110 = true by decide]

end Ulight.Json
