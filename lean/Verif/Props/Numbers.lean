import Verif.Props.Parse

/-!
# C23, C25, C26, C37: numbers, blank lines and integer literals
-/

namespace Ulight

open Spec Ascii

/-! ## C23: parts of a number -/

theorem split_at {s : Bytes} {n : Nat} (h : n ≤ s.length) : ∃ a t, s = a ++ t ∧ a.length = n ∧
    a = s.take n ∧ t = s.drop n :=
  ⟨s.take n, s.drop n, by simp, by simp [h], rfl, rfl⟩

theorem numSign_spec (o : NumberOptions) (s : Bytes) :
    ∃ a t, s = a ++ t ∧ a.length = numSign o s ∧
      (a = [] ∨ (a = b!"+" ∧ o.plus = true) ∨ (a = b!"-" ∧ o.minus = true)) := by
  unfold numSign
  split
  · rename_i h
    simp only [Bool.or_eq_true, Bool.and_eq_true, startsWith_iff] at h
    rcases h with ⟨h, t, rfl⟩ | ⟨h, t, rfl⟩
    · exact ⟨_, t, rfl, rfl, Or.inr (Or.inl ⟨rfl, h⟩)⟩
    · exact ⟨_, t, rfl, rfl, Or.inr (Or.inr ⟨rfl, h⟩)⟩
  · exact ⟨[], s, rfl, rfl, Or.inl rfl⟩

theorem numPrefix_spec (o : NumberOptions) (s : Bytes) :
    ∃ a t, s = a ++ t ∧ a.length = (numPrefix o s).1 ∧
      ((a = [] ∧ (numPrefix o s).2.1 = (if s.head? = some 0x30 then o.defaultLeadingZeroBase else o.defaultBase)
          ∧ (numPrefix o s).2.2 = true ∧ ∀ p ∈ o.prefixes, ¬ ∃ t, s = p.str ++ t) ∨
       ∃ p ∈ o.prefixes, p.str = a ∧ p.base = (numPrefix o s).2.1 ∧
        p.floatingPoint = (numPrefix o s).2.2) := by
  unfold numPrefix
  cases h : o.prefixes.find? (fun p => startsWith s p.str) with
  | some p =>
    have h1 := List.find?_some h
    have h2 := List.mem_of_find?_eq_some h
    obtain ⟨t, ht⟩ := startsWith_iff.1 h1
    exact ⟨p.str, t, ht, rfl, Or.inr ⟨p, h2, rfl, rfl, rfl⟩⟩
  | none =>
    refine ⟨[], s, rfl, rfl, Or.inl ⟨rfl, ?_, rfl, ?_⟩⟩
    · have : (startsWith s b!"0" = true) ↔ s.head? = some 0x30 := by
        cases s <;> simp [startsWith]
        exact eq_comm
      simp only [this]
    · intro p hp h'
      exact (List.find?_eq_none.1 h) p hp (startsWith_iff.2 h')

theorem numExponent_spec (o : NumberOptions) (s : Bytes) :
    ∃ a d t, s = a ++ d ++ t ∧ a.length = (numExponent o s).1 ∧ d.length = (numExponent o s).2.1 ∧
      (a = [] ∧ d = [] ∨ a ∈ o.exponentSeparators) ∧ (∀ c ∈ d, isDigitBase c 10 = true) ∧
      ((numExponent o s).2.2 = true ↔ a ∈ o.exponentSeparators ∧ d = []) ∧
      ([] ∉ o.exponentSeparators → (a = [] → d = [])) := by
  unfold numExponent
  cases h : o.exponentSeparators.find? (fun p => startsWith s p) with
  | some p =>
    have h1 := List.find?_some h
    have h2 := List.mem_of_find?_eq_some h
    obtain ⟨t, ht⟩ := startsWith_iff.1 h1
    have hd : s.drop p.length = t := by rw [ht]; simp
    simp only [hd]
    refine ⟨p, t.takeWhile (fun c => isDigitBase c 10), t.dropWhile (fun c => isDigitBase c 10),
      by rw [List.append_assoc, List.takeWhile_append_dropWhile]; exact ht, rfl, ?_, Or.inr h2, ?_, ?_, ?_⟩
    · simp [matchDigits, length_if_eq]
    · intro c hc
      exact (List.all_eq_true.1 (List.all_takeWhile (l := t) (p := fun c => isDigitBase c 10))) c hc
    · simp [matchDigits, length_if_eq, h2]
    · rintro h3 rfl
      exact absurd h2 h3
  | none =>
    refine ⟨[], [], s, by simp, rfl, rfl, Or.inl ⟨rfl, rfl⟩, by simp, ?_, by simp⟩
    simp
    intro h3
    have := (List.find?_eq_none.1 h) [] h3
    simp [startsWith] at this

theorem numSuffix_spec (o : NumberOptions) (s : Bytes)
    (hf : ∀ f, o.matchSuffix = some f → ∀ t, f t ≤ t.length) :
    ∃ a t, s = a ++ t ∧ a.length = numSuffix o s ∧
      (a = [] ∨ a ∈ o.suffixes ∨ ∃ f, o.matchSuffix = some f ∧ f s = a.length) := by
  unfold numSuffix
  split
  · cases h : o.suffixes.find? (fun p => startsWith s p) with
    | some p =>
      have h1 := List.find?_some h
      have h2 := List.mem_of_find?_eq_some h
      obtain ⟨t, ht⟩ := startsWith_iff.1 h1
      exact ⟨p, t, ht, rfl, Or.inr (Or.inl h2)⟩
    | none => exact ⟨[], s, rfl, rfl, Or.inl rfl⟩
  · cases h : o.matchSuffix with
    | some f =>
      obtain ⟨a, t, h1, h2, _, _⟩ := split_at (hf f h s)
      exact ⟨a, t, h1, h2, Or.inr (Or.inr ⟨f, rfl, h2.symm⟩)⟩
    | none => exact ⟨[], s, rfl, rfl, Or.inl rfl⟩

/-- A digit of the base or the digit separator. -/
def NumDigit (o : NumberOptions) (base : Nat) (c : UInt8) : Prop :=
  isDigitBase c base = true ∨ (o.digitSeparator ≠ 0 ∧ c = o.digitSeparator)

theorem digits_spec (o : NumberOptions) (base : Nat) (s : Bytes) :
    ∃ a t, s = a ++ t ∧ a.length = (matchSeparatedDigits s base o.digitSeparator).length ∧
      (∀ c ∈ a, NumDigit o base c) ∧ (∀ c, t.head? = some c → ¬ NumDigit o base c) := by
  let f : UInt8 → Bool := fun c => isDigitBase c base || (o.digitSeparator != 0 && c == o.digitSeparator)
  have hf : ∀ c, f c = true ↔ NumDigit o base c := by intro c; simp [f, NumDigit]
  refine ⟨s.takeWhile f, s.dropWhile f, by rw [List.takeWhile_append_dropWhile], ?_, ?_, ?_⟩
  · exact (C24_longest_run s base o.digitSeparator).symm
  · intro c hc
    exact (hf c).1 ((List.all_eq_true.1 (List.all_takeWhile (l := s) (p := f))) c hc)
  · intro c hc h
    have := List.head?_dropWhile_not f s
    rw [hc] at this
    simp [(hf c).2 h] at this

/-- Why digits are reported. -/
theorem digits_reason (o : NumberOptions) (base : Nat) (s a t : Bytes) (h : s = a ++ t)
    (hl : a.length = (matchSeparatedDigits s base o.digitSeparator).length)
    (he : (matchSeparatedDigits s base o.digitSeparator).erroneous = true) :
    a = [] ∨ (o.digitSeparator ≠ 0 ∧ MisplacedSeparator o.digitSeparator a) := by
  by_cases h0 : o.digitSeparator = 0
  · rw [h0] at he
    cases he
  · have := (C24_erroneous_iff s base _ h0).1 he
    have ht : s.take (matchSeparatedDigits s base o.digitSeparator).length = a := by
      rw [← hl, h, List.take_left]
    rw [ht] at this
    rcases this with (h1 | h1) | ⟨h1, h2⟩
    · exact Or.inr ⟨h0, Or.inl h1⟩
    · exact Or.inr ⟨h0, Or.inr (Or.inr h1)⟩
    · rw [← hl, h] at h1
      simp at h1
      subst h1
      simp at h
      subst h
      rcases h2 with h2 | h2
      · exact Or.inl h2
      · exact Or.inr ⟨h0, Or.inr (Or.inl h2)⟩

/-- What `match_common_number` says about a number: the parts of its text. -/
structure PartsOf (o : NumberOptions) (s : Bytes) (r : NumberResult) (p : NumberParts) : Prop where
  /-- The string starts with the text of the number. -/
  text : ∃ rest, s = p.text ++ rest
  sign : r.sign = p.sign.length
  pre : r.pre = p.pre.length
  integer : r.integer = p.integer.length
  point : r.radixPoint = p.point.length
  fraction : r.fractional = p.fraction.length
  expSep : r.exponentSep = p.expSep.length
  expDigits : r.exponentDigits = p.expDigits.length
  suffix : r.suffix = p.suffix.length
  length : r.length = p.text.length
  nonempty : 0 < r.length
  signOk : p.sign = [] ∨ (p.sign = b!"+" ∧ o.plus = true) ∨ (p.sign = b!"-" ∧ o.minus = true)
  /-- The prefix is one of the prefixes; it determines the base of the digits. -/
  digitsOk : ∃ base,
    ((p.pre = [] ∧ (base = o.defaultBase ∨ base = o.defaultLeadingZeroBase)) ∨
      ∃ q ∈ o.prefixes, q.str = p.pre ∧ q.base = base) ∧
    (∀ c ∈ p.integer, NumDigit o base c) ∧ ∀ c ∈ p.fraction, NumDigit o base c
  pointOk : (p.point = [] ∧ p.fraction = []) ∨ p.point = b!"."
  expOk : (p.expSep = [] ∧ p.expDigits = []) ∨ p.expSep ∈ o.exponentSeparators
  expDigitsOk : ∀ c ∈ p.expDigits, isDigitBase c 10 = true
  suffixOk : p.suffix = [] ∨ p.suffix ∈ o.suffixes ∨
    ∃ f, o.matchSuffix = some f ∧ ∃ t, f (p.suffix ++ t) = p.suffix.length
  /-- A separator without digits after it is reported. -/
  expReported : p.expSep ≠ [] → p.expDigits = [] → r.erroneous = true
  /-- A missing integer part is reported when the options ask for it. -/
  integerReported : o.nonemptyInteger = true → p.integer = [] → r.erroneous = true
  /-- A missing fraction after a radix point is reported when the options ask for it. -/
  fractionReported : o.nonemptyFraction = true → p.point ≠ [] → p.fraction = [] → r.erroneous = true
  /-- A number that consists only of a prefix is reported. -/
  prefixReported : r.length = r.pre → r.erroneous = true
  /-- Only malformed numbers are reported. -/
  reason : [] ∉ o.exponentSeparators → r.erroneous = true → p.Malformed o.digitSeparator

theorem numFraction_spec (o : NumberOptions) (base pre integer : Nat) (fl : Bool) (s : Bytes)
    (f : Nat × Nat × Bool) (h : numFraction o base pre integer fl s = some f) :
    ∃ a d t, s = a ++ d ++ t ∧ a.length = f.1 ∧ d.length = f.2.1 ∧
      ((a = [] ∧ d = []) ∨ a = b!".") ∧ (∀ c ∈ d, NumDigit o base c) ∧
      (o.nonemptyFraction = true → a ≠ [] → d = [] → f.2.2 = true) ∧
      (f.2.2 = true → a ≠ [] ∧ (d = [] ∨ (o.digitSeparator ≠ 0 ∧
        MisplacedSeparator o.digitSeparator d))) := by
  unfold numFraction at h
  split at h
  · rename_i h1
    simp only [Bool.and_eq_true, startsWith_iff] at h1
    obtain ⟨_, t, rfl⟩ := h1
    dsimp only at h
    split at h
    · simp at h
    · simp only [Option.some.injEq] at h
      subst h
      simp only [List.cons_append, List.nil_append, List.drop_succ_cons, List.drop_zero]
      obtain ⟨d, u, h1, h2, h3, _⟩ := digits_spec o base t
      refine ⟨b!".", d, u, by simp [h1], rfl, h2, Or.inr rfl, h3, ?_, ?_⟩
      · intro hn _ hd
        subst hd
        simp [hn, ← h2]
      · intro he
        refine ⟨by simp, ?_⟩
        simp only [Bool.or_eq_true, Bool.and_eq_true, beq_iff_eq] at he
        rcases he with ⟨_, he⟩ | he
        · rw [← h2] at he
          exact Or.inl (List.length_eq_zero_iff.1 he)
        · exact digits_reason o base t d u h1 h2 he
  · simp only [Option.some.injEq] at h
    subst h
    exact ⟨[], [], s, by simp, rfl, rfl, Or.inl ⟨rfl, rfl⟩, by simp, by simp, by simp⟩

/-- Every result of `match_common_number` is either no match at all or describes a partition of the
matched text into its parts; a custom suffix function must not match more than it is given. -/
theorem C23_parts (s : Bytes) (o : NumberOptions)
    (hf : ∀ f, o.matchSuffix = some f → ∀ t, f t ≤ t.length) :
    matchCommonNumber s o = {} ∨ ∃ p, PartsOf o s (matchCommonNumber s o) p := by
  unfold matchCommonNumber
  split
  · exact Or.inl rfl
  · dsimp only
    obtain ⟨sg, s1, rfl, hsg, sgOk⟩ := numSign_spec o s
    rw [← hsg]
    simp only [List.drop_append_length, ← List.drop_drop]
    obtain ⟨pr, s2, rfl, hpr, prOk⟩ := numPrefix_spec o s1
    rw [← hpr]
    simp only [List.drop_append_length]
    generalize numPrefix o (pr ++ s2) = q at *
    obtain ⟨it, s3, hs3, hit, itOk, _⟩ := digits_spec o q.2.1 s2
    have itReason := digits_reason o q.2.1 s2 it s3 hs3 hit
    rw [← hit]
    subst hs3
    simp only [List.drop_append_length]
    cases hfr : numFraction o q.2.1 pr.length it.length q.2.2 s3 with
    | none => exact Or.inl rfl
    | some f =>
      obtain ⟨pt, fr, s4, hs4, hpt, hfl, ptOk, frOk, frRep, frReason⟩ := numFraction_spec _ _ _ _ _ _ _ hfr
      subst hs4
      dsimp only
      rw [← hpt, ← hfl]
      by_cases h0 : sg.length + pr.length + it.length + pt.length + fr.length = 0
      · rw [if_pos h0]
        exact Or.inl rfl
      · rw [if_neg h0]
        right
        have hd : List.drop fr.length (List.drop pt.length (pt ++ fr ++ s4)) = s4 := by simp
        simp only [hd]
        have hexp : ∃ a d t, s4 = a ++ d ++ t ∧
            a.length = (if q.2.2 && decide (sg.length + pr.length + it.length + pt.length + fr.length <
              (sg ++ (pr ++ (it ++ (pt ++ fr ++ s4)))).length) then numExponent o s4 else (0, 0, false)).1 ∧
            d.length = (if q.2.2 && decide (sg.length + pr.length + it.length + pt.length + fr.length <
              (sg ++ (pr ++ (it ++ (pt ++ fr ++ s4)))).length) then numExponent o s4 else (0, 0, false)).2.1 ∧
            (a = [] ∧ d = [] ∨ a ∈ o.exponentSeparators) ∧ (∀ c ∈ d, isDigitBase c 10 = true) ∧
            (a ≠ [] → d = [] → (if q.2.2 && decide (sg.length + pr.length + it.length + pt.length + fr.length <
              (sg ++ (pr ++ (it ++ (pt ++ fr ++ s4)))).length) then numExponent o s4 else (0, 0, false)).2.2 = true) ∧
            ((if q.2.2 && decide (sg.length + pr.length + it.length + pt.length + fr.length <
              (sg ++ (pr ++ (it ++ (pt ++ fr ++ s4)))).length) then numExponent o s4 else (0, 0, false)).2.2 = true →
              d = [] ∧ a ∈ o.exponentSeparators) := by
          split
          · obtain ⟨a, d, t, h1, h2, h3, h4, h5, h6, _⟩ := numExponent_spec o s4
            refine ⟨a, d, t, h1, h2, h3, h4, h5, ?_, fun h => (h6.1 h).symm⟩
            intro ha hd
            rcases h4 with h4 | h4
            · exact absurd h4.1 ha
            · exact h6.2 ⟨h4, hd⟩
          · exact ⟨[], [], s4, by simp, rfl, rfl, Or.inl ⟨rfl, rfl⟩, by simp, by simp, by simp⟩
        generalize (if q.2.2 && decide (sg.length + pr.length + it.length + pt.length + fr.length <
              (sg ++ (pr ++ (it ++ (pt ++ fr ++ s4)))).length) then numExponent o s4 else (0, 0, false)) = e at *
        obtain ⟨es, ed, s5, rfl, hes, hed, esOk, edOk, esRep, esReason⟩ := hexp
        rw [← hes, ← hed]
        have hd : List.drop ed.length (List.drop es.length (es ++ ed ++ s5)) = s5 := by simp
        simp only [hd]
        have hsuf : ∃ a t, s5 = a ++ t ∧ a.length = (if sg.length + pr.length + it.length + pt.length +
            fr.length + es.length + ed.length < (sg ++ (pr ++ (it ++ (pt ++ fr ++ (es ++ ed ++ s5))))).length
              then numSuffix o s5 else 0) ∧
            (a = [] ∨ a ∈ o.suffixes ∨ ∃ f, o.matchSuffix = some f ∧ ∃ t, f (a ++ t) = a.length) := by
          split
          · obtain ⟨a, t, h1, h2, h3⟩ := numSuffix_spec o s5 hf
            refine ⟨a, t, h1, h2, ?_⟩
            rcases h3 with h3 | h3 | ⟨f, h3, h4⟩
            · exact Or.inl h3
            · exact Or.inr (Or.inl h3)
            · exact Or.inr (Or.inr ⟨f, h3, t, by rw [← h1]; exact h4⟩)
          · exact ⟨[], s5, rfl, rfl, Or.inl rfl⟩
        obtain ⟨sf, s6, hs6, hsf, sfOk⟩ := hsuf
        rw [← hsf]
        refine ⟨⟨sg, pr, it, pt, fr, es, ed, sf⟩, ?_⟩
        constructor <;> dsimp only [NumberParts.text]
        case text => exact ⟨s6, by rw [hs6]; simp⟩
        case length => simp; omega
        case nonempty => omega
        case signOk => exact sgOk
        case digitsOk =>
          refine ⟨q.2.1, ?_, itOk, frOk⟩
          rcases prOk with ⟨h1, h2, _⟩ | ⟨p, h1, h2, h3, _⟩
          · left
            refine ⟨h1, ?_⟩
            split at h2
            · exact Or.inr h2
            · exact Or.inl h2
          · exact Or.inr ⟨p, h1, h2, h3⟩
        case pointOk => exact ptOk
        case expOk => exact esOk
        case expDigitsOk => exact edOk
        case suffixOk => exact sfOk
        case expReported => intro h1 h2; simp [esRep h1 h2]
        case integerReported => intro h1 h2; simp [h1, h2]
        case fractionReported => intro h1 h2 h3; simp [frRep h1 h2 h3]
        case prefixReported =>
          intro h
          have : (pr.length == sg.length + pr.length + it.length + pt.length + fr.length + es.length +
            ed.length + sf.length) = true := by
            rw [beq_iff_eq]
            exact h.symm
          simp only [this, Bool.or_true]
        case reason =>
          intro hn he
          simp only [Bool.or_eq_true, Bool.and_eq_true, beq_iff_eq] at he
          unfold NumberParts.Malformed
          dsimp only
          rcases he with (((⟨_, he⟩ | he) | he) | he) | he
          · exact Or.inl (List.length_eq_zero_iff.1 he)
          · rcases itReason he with h | ⟨h, h'⟩
            · exact Or.inl h
            · exact Or.inr (Or.inr (Or.inr ⟨h, Or.inl h'⟩))
          · obtain ⟨ha, h | ⟨h, h'⟩⟩ := frReason he
            · exact Or.inr (Or.inl ⟨ha, h⟩)
            · exact Or.inr (Or.inr (Or.inr ⟨h, Or.inr h'⟩))
          · obtain ⟨h1, h2⟩ := esReason he
            refine Or.inr (Or.inr (Or.inl ⟨?_, h1⟩))
            rintro rfl
            exact hn h2
          · exact Or.inl (List.length_eq_zero_iff.1 (by omega))

/-- The options of C++-like numbers, to show concrete cases. -/
def exampleOptions : NumberOptions :=
  { minus := true, prefixes := [⟨b!"0x", 16, true⟩, ⟨b!"0b", 2, false⟩],
    exponentSeparators := [b!"e+", b!"e-", b!"e"], suffixes := [b!"f", b!"u"],
    digitSeparator := c!"'" }

example : matchCommonNumber b!"-1'2.5e+10f;" exampleOptions =
    { length := 11, sign := 1, pre := 0, integer := 3, radixPoint := 1, fractional := 1,
      exponentSep := 2, exponentDigits := 2, suffix := 1, erroneous := false } := by decide +kernel

/-- The lengths of the parts add up to the matched length, which is at most the length of the
string. -/
theorem C23_sum (s : Bytes) (o : NumberOptions)
    (hf : ∀ f, o.matchSuffix = some f → ∀ t, f t ≤ t.length) :
    let r := matchCommonNumber s o
    r.sign + r.pre + r.integer + r.radixPoint + r.fractional + r.exponentSep + r.exponentDigits +
      r.suffix = r.length ∧ r.length ≤ s.length := by
  intro r
  rcases C23_parts s o hf with h | ⟨p, h⟩
  · simp only [r, h]
    simp
  · obtain ⟨rest, hr⟩ := h.text
    have h1 := h.length
    have h2 := congrArg List.length hr
    simp only [NumberParts.text, List.length_append] at h1 h2
    simp only [r, h.sign, h.pre, h.integer, h.point, h.fraction, h.expSep, h.expDigits, h.suffix]
    omega

/-! ## C37: incomplete numbers -/

/-- A prefix without digits is not reported when a sign precedes it. -/
theorem C37_signed_prefix_unreported :
    let r := matchCommonNumber b!"-0x;" exampleOptions
    r.length = 3 ∧ r.pre = 2 ∧ r.integer = 0 ∧ r.fractional = 0 ∧ r.erroneous = false := by
  decide +kernel

/-- A sign alone is matched as a number that is not erroneous. -/
theorem C37_lone_sign_matched :
    let r := matchCommonNumber b!"-" { exampleOptions with digitSeparator := 0 }
    r.length = 1 ∧ r.sign = 1 ∧ r.integer = 0 ∧ r.erroneous = false := by decide +kernel

/-- Missing parts are reported: an exponent separator without digits; a missing integer or fraction
if the options forbid it; a prefix with nothing after it, if there is no sign. -/
theorem C37_incomplete_partial (s : Bytes) (o : NumberOptions)
    (hf : ∀ f, o.matchSuffix = some f → ∀ t, f t ≤ t.length) :
    let r := matchCommonNumber s o
    r.length ≠ 0 →
    ((r.exponentSep ≠ 0 ∧ r.exponentDigits = 0) ∨
     (o.nonemptyInteger = true ∧ r.integer = 0) ∨
     (o.nonemptyFraction = true ∧ r.radixPoint ≠ 0 ∧ r.fractional = 0) ∨
     (r.sign = 0 ∧ r.pre ≠ 0 ∧ r.integer + r.radixPoint + r.fractional + r.exponentSep +
      r.exponentDigits + r.suffix = 0)) → r.erroneous = true := by
  intro r h0 h
  have hsum : r.sign + r.pre + r.integer + r.radixPoint + r.fractional + r.exponentSep +
    r.exponentDigits + r.suffix = r.length := (C23_sum s o hf).1
  rcases C23_parts s o hf with he | ⟨p, hp⟩
  · simp only [r, he] at h0
    simp at h0
  · rcases h with ⟨h1, h2⟩ | ⟨h1, h2⟩ | ⟨h1, h2, h3⟩ | ⟨h1, h2, h3⟩
    · apply hp.expReported
      · rw [hp.expSep] at h1; intro h; simp [h] at h1
      · rw [hp.expDigits] at h2; exact List.length_eq_zero_iff.1 h2
    · apply hp.integerReported h1
      rw [hp.integer] at h2; exact List.length_eq_zero_iff.1 h2
    · apply hp.fractionReported h1
      · rw [hp.point] at h2; intro h; simp [h] at h2
      · rw [hp.fraction] at h3; exact List.length_eq_zero_iff.1 h3
    · refine hp.prefixReported ?_
      show r.length = r.pre
      omega

/-- Only malformed numbers are reported: a part is missing or a digit separator is misplaced. -/
theorem C37_reported_malformed (s : Bytes) (o : NumberOptions)
    (hf : ∀ f, o.matchSuffix = some f → ∀ t, f t ≤ t.length) (hn : [] ∉ o.exponentSeparators)
    (he : (matchCommonNumber s o).erroneous = true) :
    ∃ (p : NumberParts) (rest : Bytes), s = p.text ++ rest ∧ p.text.length = (matchCommonNumber s o).length ∧
      p.Malformed o.digitSeparator := by
  rcases C23_parts s o hf with h | ⟨p, hp⟩
  · rw [h] at he
    cases he
  · obtain ⟨rest, h⟩ := hp.text
    exact ⟨p, rest, h, hp.length.symm, hp.reason hn he⟩

example : (matchCommonNumber b!"1e+" exampleOptions).erroneous = true ∧
    (matchCommonNumber b!"0x" exampleOptions).erroneous = true := by decide +kernel

/-! ## C25: blank lines -/

theorem isHtmlWhitespace_iff (c : UInt8) : isHtmlWhitespace c = true ↔ Whitespace c := by
  simp [isHtmlWhitespace, Whitespace]
  grind

/-- What holds of the range returned by `find_blank_line_sequence`. -/
structure BlankResult (s : Bytes) (b n : Nat) : Prop where
  none : n = 0 → ∀ b', ¬ BlankLineAt s b'
  bound : b + n ≤ s.length
  blank : n ≠ 0 → BlankLineAt s b
  first : n ≠ 0 → ∀ b' < b, ¬ BlankLineAt s b'
  space : ∀ j c, b ≤ j → j < b + n → s[j]? = some c → Whitespace c
  last : n ≠ 0 → s[b + n - 1]? = some 0x0A ∨ b + n = s.length
  /-- The sequence cannot be extended by another blank line. -/
  longest : n ≠ 0 → ∀ b', b + n ≤ b' → BlankLineAt s b' → ∃ j c, b + n ≤ j ∧ j < b' ∧ s[j]? = some c ∧
    ¬ Whitespace c

/-- The invariant of the loop after `i` bytes. -/
def BlankInv (s : Bytes) : BlankState → Nat → Nat → Nat → Prop
  | .maybeBlank, b, _, i => b ≤ i ∧ AtLineStart s b ∧ (∀ b' < b, ¬ BlankLineAt s b') ∧
      ∀ j c, b ≤ j → j < i → s[j]? = some c → Whitespace c ∧ c ≠ 0x0A
  | .notBlank, _, _, i => ∀ b' ≤ i, ¬ BlankLineAt s b'
  | .blank, b, e, i => b < e ∧ e ≤ i ∧ BlankLineAt s b ∧ (∀ b' < b, ¬ BlankLineAt s b') ∧
      s[e - 1]? = some 0x0A ∧ (∀ j c, b ≤ j → j < i → s[j]? = some c → Whitespace c) ∧
      ∀ j c, e ≤ j → j < i → s[j]? = some c → c ≠ 0x0A

theorem blankLoop_spec (s : Bytes) (st : BlankState) (b e i : Nat) (hi : i ≤ s.length)
    (h : BlankInv s st b e i) :
    BlankResult s (blankLoop s.length st b e i (s.drop i)).1
      (blankLoop s.length st b e i (s.drop i)).2 := by
  generalize hr : s.drop i = r
  induction r generalizing st b e i with
  | nil =>
    have : s.length ≤ i := List.drop_eq_nil_iff.1 hr
    have : i = s.length := by omega
    subst this
    have hend : ∀ j c, s[j]? = some c → j < s.length := fun j c h => (List.getElem?_eq_some_iff.1 h).1
    cases st with
    | maybeBlank =>
      simp only [blankLoop]
      obtain ⟨h1, h2, h3, h4⟩ := h
      constructor <;> simp
      intro b' hb
      obtain ⟨hs, e', he1, he2, he3⟩ := hb
      have := hend _ _ he2
      rcases Nat.lt_trichotomy b' b with hlt | rfl | hgt
      · exact h3 b' hlt ⟨hs, e', he1, he2, he3⟩
      · exact (h4 e' _ he1 this he2).2 rfl
      · exact (h4 e' _ (by omega) this he2).2 rfl
    | notBlank =>
      simp only [blankLoop]
      have h : ∀ b' ≤ s.length, ¬ BlankLineAt s b' := h
      constructor <;> simp
      intro b' hb
      obtain ⟨hs, e', he1, he2, he3⟩ := hb
      have := hend _ _ he2
      exact h b' (by omega) ⟨hs, e', he1, he2, he3⟩
    | blank =>
      simp only [blankLoop, if_true]
      obtain ⟨h1, h2, h3, h4, h5, h6, h7⟩ := h
      constructor
      case none => omega
      case bound => omega
      case blank => exact fun _ => h3
      case first => exact fun _ => h4
      case space => exact fun j c h1 h2 h3 => h6 j c h1 (by omega) h3
      case last => intro _; right; omega
      case longest =>
        intro _ b' hb' ⟨_, e', he1, he2, _⟩
        have := hend _ _ he2
        omega
  | cons c r ih =>
    have hlt : i < s.length := by
      have := congrArg List.length hr
      simp at this
      omega
    have hc : s[i]? = some c := by
      have : (s.drop i)[0]? = some c := by rw [hr]; rfl
      simpa using this
    have hr' : s.drop (i + 1) = r := by
      rw [← List.drop_drop, hr]; rfl
    have hw10 : Whitespace 0x0A := by simp [Whitespace]
    cases st with
    | maybeBlank =>
      obtain ⟨h1, h2, h3, h4⟩ := h
      simp only [blankLoop]
      split
      · rename_i hcl
        subst hcl
        refine ih .blank b (i + 1) (i + 1) (by omega) ?_ hr'
        refine ⟨by omega, by omega, ⟨h2, i, h1, hc, fun j c a b d => (h4 j c a b d).1⟩, h3, by simpa using hc, ?_, ?_⟩
        · intro j c' hj1 hj2 hj3
          by_cases hji : j = i
          · subst hji; rw [hc] at hj3; simp at hj3; subst hj3; exact hw10
          · exact (h4 j c' hj1 (by omega) hj3).1
        · intro j c' hj1 hj2; omega
      · rename_i hcl
        split
        · rename_i hws
          simp at hws
          refine ih .notBlank b e (i + 1) (by omega) ?_ hr'
          intro b' hb' hbl
          have hws : ¬ Whitespace c := by
            rw [← isHtmlWhitespace_iff, hws]; simp
          obtain ⟨hs, e', he1, he2, he3⟩ := hbl
          rcases Nat.lt_trichotomy b' b with hlt | rfl | hgt
          · exact h3 b' hlt ⟨hs, e', he1, he2, he3⟩
          · rcases Nat.lt_trichotomy e' i with h | rfl | h
            · exact (h4 e' _ he1 h he2).2 rfl
            · rw [hc] at he2; simp at he2; exact hcl he2
            · exact hws (he3 i c h1 h hc)
          · rcases hs with rfl | hs
            · omega
            · by_cases hbi : b' - 1 = i
              · rw [hbi, hc] at hs; simp at hs; exact hcl hs
              · exact (h4 (b' - 1) _ (by omega) (by omega) hs).2 rfl
        · rename_i hws
          simp at hws
          refine ih .maybeBlank b e (i + 1) (by omega) ?_ hr'
          refine ⟨by omega, h2, h3, ?_⟩
          intro j c' hj1 hj2 hj3
          by_cases hji : j = i
          · subst hji; rw [hc] at hj3; simp at hj3; subst hj3
            exact ⟨(isHtmlWhitespace_iff _).1 hws, hcl⟩
          · exact h4 j c' hj1 (by omega) hj3
    | notBlank =>
      simp only [blankLoop]
      have h : ∀ b' ≤ i, ¬ BlankLineAt s b' := h
      split
      · rename_i hcl
        subst hcl
        refine ih .maybeBlank (i + 1) e (i + 1) (by omega) ?_ hr'
        refine ⟨by omega, Or.inr (by simpa using hc), fun b' hb => h b' (by omega), ?_⟩
        intro j c' hj1 hj2; omega
      · rename_i hcl
        refine ih .notBlank b e (i + 1) (by omega) ?_ hr'
        intro b' hb' hbl
        by_cases hbi : b' = i + 1
        · subst hbi
          rcases hbl.1 with h0 | h0
          · omega
          · simp at h0; rw [hc] at h0; simp at h0; exact hcl h0
        · exact h b' (by omega) hbl
    | blank =>
      obtain ⟨h1, h2, h3, h4, h5, h6, h7⟩ := h
      simp only [blankLoop]
      split
      · rename_i hcl
        subst hcl
        refine ih .blank b (i + 1) (i + 1) (by omega) ?_ hr'
        refine ⟨by omega, by omega, h3, h4, by simpa using hc, ?_, ?_⟩
        · intro j c' hj1 hj2 hj3
          by_cases hji : j = i
          · subst hji; rw [hc] at hj3; simp at hj3; subst hj3; exact hw10
          · exact h6 j c' hj1 (by omega) hj3
        · intro j c' hj1 hj2; omega
      · rename_i hcl
        split
        · rename_i hws
          simp at hws
          have hws : ¬ Whitespace c := by
            rw [← isHtmlWhitespace_iff, hws]; simp
          constructor
          case none => dsimp only; omega
          case bound => dsimp only; omega
          case blank => exact fun _ => h3
          case first => exact fun _ => h4
          case space => dsimp only; exact fun j c h1 h2 h3 => h6 j c h1 (by omega) h3
          case last =>
            dsimp only
            intro _
            left
            rw [show b + (e - b) - 1 = e - 1 by omega]
            exact h5
          case longest =>
            dsimp only
            intro _ b' hb' hbl
            obtain ⟨hs, e', he1, he2, he3⟩ := hbl
            refine ⟨i, c, by omega, ?_, hc, hws⟩
            apply Classical.byContradiction
            intro hnot
            rcases Nat.lt_trichotomy e' i with h | rfl | h
            · exact h7 e' _ (by omega) h he2 rfl
            · rw [hc] at he2; simp at he2; exact hcl he2
            · exact hws (he3 i c (by omega) h hc)
        · rename_i hws
          simp at hws
          refine ih .blank b e (i + 1) (by omega) ?_ hr'
          refine ⟨h1, by omega, h3, h4, h5, ?_, ?_⟩
          · intro j c' hj1 hj2 hj3
            by_cases hji : j = i
            · subst hji; rw [hc] at hj3; simp at hj3; subst hj3
              exact (isHtmlWhitespace_iff _).1 hws
            · exact h6 j c' hj1 (by omega) hj3
          · intro j c' hj1 hj2 hj3
            by_cases hji : j = i
            · subst hji; rw [hc] at hj3; simp at hj3; subst hj3; exact hcl
            · exact h7 j c' hj1 (by omega) hj3

/-- `find_blank_line_sequence` finds the first blank line and the whitespace after it: the range
lies inside the string, starts at the first blank line, contains only whitespace, cannot be
extended by another blank line, and is empty only if there is no blank line.  Its last byte is a
line feed or the last byte of the string. -/
theorem C25_blank_lines (s : Bytes) :
    BlankResult s (findBlankLineSequence s).1 (findBlankLineSequence s).2 := by
  have := blankLoop_spec s .maybeBlank 0 0 0 (by omega) ⟨by omega, Or.inl rfl, by omega, by omega⟩
  simpa [findBlankLineSequence] using this

example : findBlankLineSequence b!"first\n\t\t\n\n second" = (6, 4) := by decide +kernel

/-- The documented claim that the last character is always a line feed fails at the end of the
text. -/
theorem C25_last_not_newline : findBlankLineSequence b!"a\n\n  " = (2, 3) ∧
    (b!"a\n\n  ")[2 + 3 - 1]? ≠ some 0x0A := by decide +kernel

/-- The last byte is a line feed unless the string ends with other whitespace. -/
theorem C25_last_newline_partial (s : Bytes) (h : (findBlankLineSequence s).2 ≠ 0)
    (hs : (findBlankLineSequence s).1 + (findBlankLineSequence s).2 < s.length ∨
      s.getLast? = some 0x0A) :
    s[(findBlankLineSequence s).1 + (findBlankLineSequence s).2 - 1]? = some 0x0A := by
  rcases (C25_blank_lines s).last h with h1 | h1
  · exact h1
  · rcases hs with hs | hs
    · omega
    · rw [h1, ← List.getLast?_eq_getElem?, hs]

/-! ## C26: integer literals -/

theorem digitVal_eq (c : UInt8) :
    digitVal c = if digitValue c < 36 then some (digitValue c) else none := by
  revert c
  apply forall_byte
  decide +kernel

theorem numeral_spec {base : Nat} {ds : Bytes} {v : Nat} (h : Numeral base ds v) :
    ds ≠ [] ∧ (∀ c ∈ ds, digitValue c < base) ∧ digitsValue base ds = v := by
  have key : ∀ {c v}, digitVal c = some v → digitValue c = v := by
    intro c v h
    rw [digitVal_eq] at h
    split at h <;> simp at h
    exact h
  induction h with
  | digit h lt =>
    have := key h
    simp [digitsValue, this, lt]
  | snoc h hc lt ih =>
    have := key hc
    refine ⟨by simp, ?_, ?_⟩
    · intro c hm
      simp at hm
      rcases hm with hm | rfl
      · exact ih.2.1 c hm
      · omega
    · simp [digitsValue] at ih ⊢
      rw [ih.2.2, this]

theorem numeral_of {base : Nat} (hb : base ≤ 36) (ds : Bytes) (h0 : ds ≠ [])
    (h : ∀ c ∈ ds, digitValue c < base) : Numeral base ds (digitsValue base ds) := by
  have key : ∀ c, digitValue c < base → digitVal c = some (digitValue c) := by
    intro c hc
    rw [digitVal_eq, if_pos (by omega)]
  generalize hn : ds.length = n
  induction n generalizing ds with
  | zero => exact absurd (List.length_eq_zero_iff.1 hn) h0
  | succ n ih =>
    obtain ⟨ds', c, rfl⟩ : ∃ ds' c, ds = ds' ++ [c] :=
      ⟨ds.dropLast, ds.getLast h0, (List.dropLast_concat_getLast h0).symm⟩
    have hc := h c (by simp)
    by_cases hd : ds' = []
    · subst hd
      have := Numeral.digit (key c hc) hc
      simpa [digitsValue] using this
    · have := Numeral.snoc (ih ds' hd (fun x hx => h x (by simp [hx])) (by simpa using hn)) (key c hc) hc
      simpa [digitsValue] using this

theorem parseUintDigits_numeral {base : Nat} (_hb : base ≤ 36) {ds : Bytes} {v : Nat}
    (h : Numeral base ds v) : parseUintDigits ds base = if v < 2 ^ 64 then some v else none := by
  obtain ⟨h1, h2, h3⟩ := numeral_spec h
  have : fromCharsDigits base ds = ds := by
    unfold fromCharsDigits
    have := List.takeWhile_append_of_pos (p := fun c => decide (digitValue c < base)) (l₁ := ds)
      (l₂ := []) (by simpa using h2)
    simpa using this
  unfold parseUintDigits
  simp only [this, h1, if_false, h3]
  by_cases hv : v < 2 ^ 64
  · rw [if_neg (by omega), if_pos hv]
  · rw [if_pos (by omega), if_neg hv]

theorem numeral_head {base : Nat} (_hb : base ≤ 36) {ds : Bytes} {v : Nat} (h : Numeral base ds v) :
    ∃ c t, ds = c :: t ∧ digitValue c < base ∧ ∀ c ∈ t, digitValue c < base := by
  obtain ⟨h1, h2, _⟩ := numeral_spec h
  cases ds with
  | nil => exact absurd rfl h1
  | cons c t => exact ⟨c, t, rfl, h2 c (by simp), fun x hx => h2 x (by simp [hx])⟩

/-- A literal is parsed to its value, or to no value if it does not fit into 64 bits. -/
theorem C26_uinteger {s : Bytes} {v : Nat} (h : Literal s v) :
    parseUintLiteral s = if v < 2 ^ 64 then some v else none := by
  cases h with
  | binary h =>
    have := parseUintDigits_numeral (by omega) h
    simp [parseUintLiteral, startsWith, this]
  | hex h =>
    have := parseUintDigits_numeral (by omega) h
    simp [parseUintLiteral, startsWith, this]
  | octal h z =>
    have hp := parseUintDigits_numeral (by omega) h
    obtain ⟨c, t, rfl, h1, h2⟩ := numeral_head (by omega) h
    simp at z
    subst z
    have hb : digitValue c!"b" = 11 := by decide
    have hx : digitValue c!"x" = 33 := by decide
    have n1 : startsWith (c!"0" :: t) b!"0b" = false := by
      rw [Bool.eq_false_iff]
      intro h
      obtain ⟨u, hu⟩ := startsWith_iff.1 h
      simp at hu
      have := h2 c!"b" (by rw [hu]; simp)
      omega
    have n2 : startsWith (c!"0" :: t) b!"0x" = false := by
      rw [Bool.eq_false_iff]
      intro h
      obtain ⟨u, hu⟩ := startsWith_iff.1 h
      simp at hu
      have := h2 c!"x" (by rw [hu]; simp)
      omega
    have n3 : startsWith (c!"0" :: t) b!"0" = true := by simp [startsWith]
    simp [parseUintLiteral, n1, n2, n3, hp]
  | decimal h z =>
    have hp := parseUintDigits_numeral (by omega) h
    obtain ⟨c, t, rfl, h1, h2⟩ := numeral_head (by omega) h
    simp at z
    have n : ∀ u, startsWith (c :: t) (c!"0" :: u) = false := by
      intro u
      rw [Bool.eq_false_iff]
      intro h
      obtain ⟨w, hu⟩ := startsWith_iff.1 h
      simp at hu
      exact z hu.1
    simp [parseUintLiteral, n, hp]

/-- Conversely, every value that is returned is the value of a literal at the beginning of the
string, and fits into 64 bits. -/
theorem C26_uinteger_sound {s : Bytes} {v : Nat} (h : parseUintLiteral s = some v) :
    v < 2 ^ 64 ∧ ∃ t u, s = t ++ u ∧ Literal t v := by
  have key : ∀ base s v, base ≤ 36 → parseUintDigits s base = some v →
      v < 2 ^ 64 ∧ ∃ t u, s = t ++ u ∧ Numeral base t v := by
    intro base s v hb h
    unfold parseUintDigits at h
    dsimp only at h
    split at h
    · simp at h
    · rename_i h0
      split at h
      · simp at h
      · simp only [Option.some.injEq] at h
        subst h
        refine ⟨by omega, _, s.dropWhile (fun c => digitValue c < base), ?_, numeral_of hb _ h0 ?_⟩
        · exact (List.takeWhile_append_dropWhile).symm
        · intro c hc
          have := (List.all_eq_true.1 (List.all_takeWhile (l := s) (p := fun c => decide (digitValue c < base)))) c hc
          simpa using this
  have hhead : ∀ base s t u v, base ≤ 36 → Numeral base t v → s = t ++ u → t.head? = s.head? := by
    intro base s t u v hb h e
    obtain ⟨c, t', rfl, _⟩ := numeral_head hb h
    simp [e]
  unfold parseUintLiteral at h
  split at h
  · simp at h
  · split at h
    · rename_i hs
      obtain ⟨w, rfl⟩ := startsWith_iff.1 hs
      obtain ⟨h1, t, u, h2, h3⟩ := key 2 _ v (by omega) h
      refine ⟨h1, b!"0b" ++ t, u, ?_, .binary h3⟩
      simp at h2 ⊢
      exact h2
    · split at h
      · rename_i hs
        obtain ⟨w, rfl⟩ := startsWith_iff.1 hs
        obtain ⟨h1, t, u, h2, h3⟩ := key 16 _ v (by omega) h
        refine ⟨h1, b!"0x" ++ t, u, ?_, .hex h3⟩
        simp at h2 ⊢
        exact h2
      · split at h
        · rename_i hs
          obtain ⟨w, rfl⟩ := startsWith_iff.1 hs
          obtain ⟨h1, t, u, h2, h3⟩ := key 8 _ v (by omega) h
          refine ⟨h1, t, u, h2, .octal h3 ?_⟩
          rw [hhead 8 _ t u v (by omega) h3 h2]
          simp
        · rename_i hs
          obtain ⟨h1, t, u, h2, h3⟩ := key 10 _ v (by omega) h
          refine ⟨h1, t, u, h2, .decimal h3 ?_⟩
          rw [hhead 10 _ t u v (by omega) h3 h2]
          intro hz
          apply hs
          cases s with
          | nil => simp at hz
          | cons c s =>
            simp at hz
            simp [startsWith, hz]

/-- Text after the literal is silently ignored. -/
theorem C26_trailing_ignored : parseUintLiteral b!"12abc" = some 12 ∧
    parseUintLiteral b!"08" = some 0 := by decide +kernel

/-- The property fails for signed literals: values that do not fit are returned with the wrong
value instead of no value. -/
theorem C26_signed_overflow :
    parseIntLiteral b!"9223372036854775808" = some (-9223372036854775808) ∧
    parseIntLiteral b!"-18446744073709551615" = some 1 := by decide +kernel

/-- Signed literals in the range of 64-bit signed integers are parsed to their value. -/
theorem C26_integer_partial {s : Bytes} {v : Int} (h : SignedLiteral s v)
    (lo : -(2 ^ 63) ≤ v) (hi : v < 2 ^ 63) : parseIntLiteral s = some v := by
  cases h with
  | @pos s n h =>
    have hp := C26_uinteger h
    rw [if_pos (by omega)] at hp
    have hs : s ≠ [] := by
      rintro rfl
      simp [parseUintLiteral] at hp
    have hm : startsWith s b!"-" = false := by
      rw [Bool.eq_false_iff]
      intro hm
      obtain ⟨w, rfl⟩ := startsWith_iff.1 hm
      have hd : digitValue c!"-" = 36 := by decide
      cases h with
      | octal h z =>
        obtain ⟨c, t, e, h1, _⟩ := numeral_head (by omega) h
        simp at e
        rw [← e.1] at h1
        omega
      | decimal h z =>
        obtain ⟨c, t, e, h1, _⟩ := numeral_head (by omega) h
        simp at e
        rw [← e.1] at h1
        omega
    simp only [parseIntLiteral, hs, hm, if_false, hp]
    simp [toSigned]
    omega
  | @neg s n h =>
    have hp := C26_uinteger h
    rw [if_pos (by omega)] at hp
    simp only [parseIntLiteral, startsWith, List.cons_append, List.nil_append, List.drop_succ_cons,
      List.drop_zero, hp]
    simp [toSigned]
    omega

example : parseIntLiteral b!"-0x7f" = some (-127) ∧ parseIntLiteral b!"0b101" = some 5 ∧
    parseUintLiteral b!"18446744073709551616" = none := by decide +kernel

end Ulight
