import Verif.Props.Program.YamlSpace
import Verif.Hl.Written
import Verif.Hl.Program

/-!
# C58 for YAML: values without parts
-/

namespace Ulight.Yaml

open Spec Spec.Yaml

variable {env : HEnv} {x y : St} {a a' b s t u v w e d f i r point sign : Bytes} {ts us vs : List Token} {k n : Nat} {c : UInt8} {key : Bool}

/-! ## Numbers, words and strings without quotation marks -/

theorem digit_bytes : ∀ c : UInt8, isDigit c = true → isDigitBase c 10 = true ∧ c ≠ c!"+" ∧ c ≠ c!"-" ∧ c ≠ c!"." ∧ c ≠ 0 ∧ c ≠ c!"~" ∧
    c ∉ b!"\"'*" ∧ (words.all fun w => w.1.head? != some c) = true := by
  apply forall_byte; decide +kernel

theorem stop_bytes : ∀ c : UInt8, c ∈ b!"\r\n,[]{}#: " → isDigitBase c 10 = false ∧ isDigit c = false ∧ c ≠ c!"." ∧ c ∉ b!"eExXoObB" := by
  apply forall_byte; decide +kernel

theorem NumberStops.head (h : NumberStops b) (hc : b.head? = some c) : c ∈ b!"\r\n,[]{}#: " := by
  cases h with
  | nil => simp at hc
  | char h => simp at hc; subst hc; exact List.mem_append_left b!": " h
  | colon => simp at hc; subst hc; decide
  | space => simp at hc; subst hc; decide

theorem special_none (hd : isDigit c = true) : specials.findSome? (matchSpecial (c :: t)) = none := by
  have h := digit_bytes c hd
  simp [specials, matchSpecial, startsWith, h.2.1.symm, h.2.2.1.symm, h.2.2.2.1.symm]

theorem sexagesimal_none (hd : ∀ c ∈ v, isDigit c = true) (hb : NumberStops b) : matchSexagesimal (v ++ b) = none := by
  have hs : ∀ c, b.head? = some c → isDigit c = false := fun c hc => (stop_bytes c (NumberStops.head hb hc)).2.1
  have h1 : Ascii.length_if (v ++ b) isDigit = v.length :=
    length_if_eq (longest_of hd fun c hc => by simp [hs c hc]) (by simp)
  unfold matchSexagesimal
  simp only [h1]
  rw [List.getElem?_append_right (Nat.le_refl _), Nat.sub_self, ← List.head?_eq_getElem?]
  split
  · rename_i h
    simp at h
    cases hb with
    | @colon t hc =>
      have h2 : Ascii.length_if ((v ++ 58 :: t).drop (v.length + 1)) isDigit = 0 := by
        have : (v ++ 58 :: t).drop (v.length + 1) = t := by simp [List.drop_append]
        rw [this]
        exact length_if_eq ⟨by simp, fun c hc' => by
          have := hc c (by rw [List.head?_eq_getElem?]; exact hc')
          simp at this
          rcases this with rfl | rfl | rfl <;> decide⟩ (by simp)
      rw [h2]
      simp
    | nil => simp at h
    | char hc => simp at h; rw [h.2] at hc; exact absurd hc (by decide)
    | space => simp at h
  · rfl

theorem run_length {p : UInt8 → Bool} (h : ∀ c ∈ v, p c = true) (ht : ∀ c, t.head? = some c → p c = false) :
    Ascii.length_if (v ++ t) p = v.length :=
  length_if_eq (longest_of h fun c hc => by simp [ht c hc]) (by simp)

theorem drop_two : (a ++ (b ++ t)).drop (a.length + b.length) = t := by
  rw [← List.append_assoc, ← List.length_append, List.drop_left]

theorem digits_mem : ∀ c : UInt8, c ∈ digitsOf 10 → isDigit c = true := by
  apply forall_byte; decide +kernel

/-- The prefixes of numbers do not begin the text. -/
theorem pre_zero (h : ∀ p ∈ prefixedOptions.prefixes, startsWith s p.str = false) : (matchCommonNumber s prefixedOptions).pre = 0 := by
  have h1 : (numPrefix prefixedOptions (s.drop 0)).1 = 0 := by
    unfold numPrefix
    have : prefixedOptions.prefixes.find? (fun p => startsWith (s.drop 0) p.str) = none := by
      rw [List.find?_eq_none]
      intro p hp
      simp [h p hp]
    rw [this]
  have h2 : numSign prefixedOptions s = 0 := rfl
  unfold matchCommonNumber
  simp only [h2, h1]
  split
  · rfl
  · split
    · rfl
    · split
      · rfl
      · rfl

theorem prefixes_second (h : ∀ c, s[1]? = some c → c ∉ b!"xXoObB") : ∀ p ∈ prefixedOptions.prefixes, startsWith s p.str = false := by
  have : ∀ c, c ∈ b!"xXoObB" → startsWith s [c!"0", c] = false := by
    intro c hc
    apply Bool.eq_false_iff.2
    intro hs
    obtain ⟨t, rfl⟩ := startsWith_iff.1 hs
    exact h c rfl hc
  intro p hp
  simp [prefixedOptions] at hp
  rcases hp with rfl | rfl | rfl | rfl | rfl | rfl <;> exact this _ (by decide)

theorem matchNumber_special (h : w ∈ Spec.Yaml.specials) : (matchNumber (w ++ b)).length = w.length ∧ (matchNumber (w ++ b)).erroneous = false := by
  simp [Spec.Yaml.specials] at h
  rcases h with rfl | rfl | rfl | rfl | rfl | rfl | rfl | rfl | rfl | rfl | rfl | rfl <;>
    simp [matchNumber, specials, matchSpecial, startsWith]

theorem stop_base : ∀ c : UInt8, c ∈ b!"\r\n,[]{}#: " → isDigitBase c 16 = false ∧ isDigitBase c 8 = false ∧ isDigitBase c 2 = false := by
  apply forall_byte; decide +kernel

theorem base_mem : ∀ c : UInt8, (c ∈ digitsOf 16 → isDigitBase c 16 = true) ∧ (c ∈ digitsOf 8 → isDigitBase c 8 = true) ∧
    (c ∈ digitsOf 2 → isDigitBase c 2 = true) := by
  apply forall_byte; decide +kernel

theorem matchNumber_prefixed {pre ds : Bytes} {base : Nat} (h : (pre, base) ∈ prefixes) (hd : Digits base ds) (hb : NumberStops b) :
    (matchNumber (pre ++ ds ++ b)).length = (pre ++ ds).length ∧ (matchNumber (pre ++ ds ++ b)).erroneous = false := by
  have hr : Ascii.length_if (ds ++ b) (fun c => isDigitBase c base) = ds.length := by
    refine run_length (fun c hc => ?_) fun c hc => ?_
    · have h1 := hd.2 c hc
      have h2 := base_mem c
      simp [prefixes] at h
      grind
    · have h2 := stop_base c (NumberStops.head hb hc)
      simp [prefixes] at h
      grind
  have hl := List.length_pos_iff.2 hd.1
  have hm : ∃ r, matchCommonNumber (pre ++ ds ++ b) prefixedOptions = r ∧ r.length = (pre ++ ds).length ∧ r.pre = 2 ∧ r.erroneous = false := by
    refine ⟨_, rfl, ?_⟩
    have hp : numPrefix prefixedOptions (pre ++ ds ++ b) = (2, base, false) := by
      simp [prefixes] at h
      rcases h with ⟨rfl, rfl⟩ | ⟨rfl, rfl⟩ | ⟨rfl, rfl⟩ | ⟨rfl, rfl⟩ | ⟨rfl, rfl⟩ | ⟨rfl, rfl⟩ <;>
        simp [numPrefix, prefixedOptions, startsWith]
    have h2 : pre.length = 2 := by
      simp [prefixes] at h
      rcases h with ⟨rfl, rfl⟩ | ⟨rfl, rfl⟩ | ⟨rfl, rfl⟩ | ⟨rfl, rfl⟩ | ⟨rfl, rfl⟩ | ⟨rfl, rfl⟩ <;> rfl
    have hdr : (pre ++ ds ++ b).drop (0 + 2) = ds ++ b := by rw [← h2]; simp
    have hsep : matchSeparatedDigits (ds ++ b) base 0 = ⟨ds.length, false⟩ := by simp [matchSeparatedDigits, matchDigits, hr]
    have h3 : numSign prefixedOptions (pre ++ ds ++ b) = 0 := rfl
    have h4 : prefixedOptions.digitSeparator = 0 := rfl
    have ne : pre ++ ds ++ b ≠ [] := by intro h; rw [h] at hdr; have := congrArg List.length hdr; simp at this; omega
    unfold matchCommonNumber
    simp only [ne, if_false, h3, List.drop_zero, hp, hdr, hsep, h4, numFraction, Bool.false_and]
    have h5 : ds ≠ [] := hd.1
    simp [numSuffix, prefixedOptions, h2, h5]
  obtain ⟨r, h1, h2, h3, h4⟩ := hm
  have hsp : specials.findSome? (matchSpecial (pre ++ ds ++ b)) = none := by
    simp [prefixes] at h
    rcases h with ⟨rfl, rfl⟩ | ⟨rfl, rfl⟩ | ⟨rfl, rfl⟩ | ⟨rfl, rfl⟩ | ⟨rfl, rfl⟩ | ⟨rfl, rfl⟩ <;> exact special_none (by decide)
  unfold matchNumber
  rw [hsp, h1]
  have h5 : r.length ≠ 0 := by rw [h2]; simp; grind
  simp [h3, h2]
  grind

theorem digit_second (hu : ∀ c ∈ u, isDigit c = true) (ne : u ≠ []) (ht : ∀ c, t.head? = some c → c ∉ b!"xXoObB") :
    ∀ c, (u ++ t)[1]? = some c → c ∉ b!"xXoObB" := by
  have hd : ∀ c : UInt8, isDigit c = true → c ∉ b!"xXoObB" := by apply forall_byte; decide +kernel
  intro c hc
  match u, ne with
  | [e], _ => simp at hc; exact ht c (by rw [List.head?_eq_getElem?]; exact hc)
  | e :: e' :: u, _ => simp at hc; subst hc; exact hd _ (hu _ (by simp))

theorem matchNumber_of_sexagesimal {n : Nat} (hu : ∀ c ∈ u, isDigit c = true) (ne : u ≠ []) (h : matchSexagesimal (u ++ b!":" ++ t) = some n) :
    (matchNumber (u ++ b!":" ++ t)).length = n ∧ (matchNumber (u ++ b!":" ++ t)).erroneous = false := by
  have h1 := pre_zero (prefixes_second (digit_second (t := b!":" ++ t) hu ne (by simp)))
  have hsp : specials.findSome? (matchSpecial (u ++ b!":" ++ t)) = none := by
    obtain ⟨d, u, rfl⟩ := List.exists_cons_of_ne_nil ne
    exact special_none (hu d (by simp))
  rw [← List.append_assoc] at h1
  unfold matchNumber
  rw [hsp, h]
  simp
  constructor
  · simp at h1; rw [h1]; simp
  · simp at h1; rw [h1]; simp

theorem matchNumber_sexagesimal (hu : Digits 10 u) (hv : Digits 10 v) (hb : NumberStops b) (hc : b.head? ≠ some c!":") :
    (matchNumber (u ++ b!":" ++ v ++ b)).length = (u ++ b!":" ++ v).length ∧ (matchNumber (u ++ b!":" ++ v ++ b)).erroneous = false := by
  have hu' := fun c hc => digits_mem c (hu.2 c hc)
  have hv' := fun c hc => digits_mem c (hv.2 c hc)
  rw [show u ++ b!":" ++ v ++ b = u ++ b!":" ++ (v ++ b) by simp]
  refine matchNumber_of_sexagesimal hu' hu.1 ?_
  have h1 : Ascii.length_if (u ++ b!":" ++ (v ++ b)) isDigit = u.length := by
    rw [List.append_assoc]
    exact run_length hu' (by simp; decide)
  have h2 : Ascii.length_if (v ++ b) isDigit = v.length := run_length hv' fun c hc => (stop_bytes c (NumberStops.head hb hc)).2.1
  have h3 : (u ++ b!":" ++ (v ++ b))[u.length]? = some c!":" := by simp
  have h4 : (u ++ b!":" ++ (v ++ b)).drop (u.length + 1) = v ++ b := by simp [List.drop_append]
  have h5 : (u ++ b!":" ++ (v ++ b))[u.length + 1 + v.length]? = b.head? := by
    rw [List.getElem?_append_right (by simp; try omega), List.getElem?_append_right (by simp; try omega), List.head?_eq_getElem?]
    congr 1
    simp
  unfold matchSexagesimal
  simp only [h1, h3, h4, h2, h5]
  have := List.length_pos_iff.2 hu.1
  have := List.length_pos_iff.2 hv.1
  simp [*]
  omega

theorem matchNumber_sexagesimal3 (hu : Digits 10 u) (hv : Digits 10 v) (hw : Digits 10 w) (hb : NumberStops b) :
    (matchNumber (u ++ b!":" ++ v ++ b!":" ++ w ++ b)).length = (u ++ b!":" ++ v ++ b!":" ++ w).length ∧
      (matchNumber (u ++ b!":" ++ v ++ b!":" ++ w ++ b)).erroneous = false := by
  have hu' := fun c hc => digits_mem c (hu.2 c hc)
  have hv' := fun c hc => digits_mem c (hv.2 c hc)
  have hw' := fun c hc => digits_mem c (hw.2 c hc)
  rw [show u ++ b!":" ++ v ++ b!":" ++ w ++ b = u ++ b!":" ++ (v ++ b!":" ++ (w ++ b)) by simp]
  refine matchNumber_of_sexagesimal hu' hu.1 ?_
  have h1 : Ascii.length_if (u ++ b!":" ++ (v ++ b!":" ++ (w ++ b))) isDigit = u.length := by
    rw [List.append_assoc]
    exact run_length hu' (by simp; decide)
  have h2 : Ascii.length_if (v ++ b!":" ++ (w ++ b)) isDigit = v.length := by
    rw [List.append_assoc]
    exact run_length hv' (by simp; decide)
  have h2' : Ascii.length_if (w ++ b) isDigit = w.length := run_length hw' fun c hc => (stop_bytes c (NumberStops.head hb hc)).2.1
  have h3 : (u ++ b!":" ++ (v ++ b!":" ++ (w ++ b)))[u.length]? = some c!":" := by simp
  have h4 : (u ++ b!":" ++ (v ++ b!":" ++ (w ++ b))).drop (u.length + 1) = v ++ b!":" ++ (w ++ b) := by simp [List.drop_append]
  have h5 : (u ++ b!":" ++ (v ++ b!":" ++ (w ++ b)))[u.length + 1 + v.length]? = some c!":" := by
    rw [List.getElem?_append_right (by simp; try omega)]
    simp
  have h6 : (u ++ b!":" ++ (v ++ b!":" ++ (w ++ b))).drop (u.length + 1 + v.length + 1) = w ++ b := by
    rw [show u ++ b!":" ++ (v ++ b!":" ++ (w ++ b)) = (u ++ b!":" ++ v ++ b!":") ++ (w ++ b) by simp]
    exact List.drop_left' (by simp; omega)
  unfold matchSexagesimal
  simp only [h1, h3, h4, h2, h5, h6, h2']
  have := List.length_pos_iff.2 hu.1
  have := List.length_pos_iff.2 hv.1
  simp [*]
  omega

/-! ## Decimal numbers -/

theorem exponent_reads (he : e = [] ∧ d = [] ∨ e ∈ [b!"e", b!"e+", b!"e-", b!"E", b!"E+", b!"E-"] ∧ Digits 10 d) (hb : NumberStops b) :
    numExponent decimalOptions (e ++ (d ++ b)) = (e.length, d.length, false) := by
  have hs := fun c hc => stop_bytes c (NumberStops.head (c := c) hb hc)
  rcases he with ⟨rfl, rfl⟩ | ⟨he, hd⟩
  · have : decimalOptions.exponentSeparators.find? (fun p => startsWith b p) = none := by
      cases b with
      | nil => rfl
      | cons c t =>
        have := (hs c rfl).2.2.2
        simp at this
        simp [decimalOptions, startsWith]
        grind
    unfold numExponent
    rw [List.nil_append, List.nil_append, this]
    rfl
  · have hd' := fun c hc => digit_bytes c (digits_mem c (hd.2 c hc))
    have hr : matchDigits (d ++ b) 10 = d.length := run_length (fun c hc => (hd' c hc).1) fun c hc => (hs c hc).1
    have hf : decimalOptions.exponentSeparators.find? (fun p => startsWith (e ++ (d ++ b)) p) = some e := by
      obtain ⟨c, t, rfl⟩ := List.exists_cons_of_ne_nil hd.1
      have := hd' c (by simp)
      simp at he
      rcases he with rfl | rfl | rfl | rfl | rfl | rfl <;> simp [decimalOptions, startsWith, List.find?] <;> grind
    unfold numExponent
    rw [hf]
    simp [hr]
    have := hd.1
    grind

theorem fraction_reads (hf : point = [] ∧ f = [] ∨ point = b!"." ∧ (f = [] ∨ Digits 10 f)) (hi : i ≠ [] ∨ f ≠ [])
    (ht : ∀ c, t.head? = some c → isDigitBase c 10 = false ∧ c ≠ c!".") :
    numFraction decimalOptions 10 0 i.length true (point ++ (f ++ t)) = some (point.length, f.length, false) := by
  unfold numFraction
  rcases hf with ⟨rfl, rfl⟩ | ⟨rfl, hf⟩
  · have : startsWith t b!"." = false := by
      apply Bool.eq_false_iff.2
      intro h
      obtain ⟨u, rfl⟩ := startsWith_iff.1 h
      exact (ht c!"." rfl).2 rfl
    simp [this]
  · have hd : ∀ c ∈ f, isDigit c = true := by
      rcases hf with rfl | hf
      · simp
      · exact fun c hc => digits_mem c (hf.2 c hc)
    have hr : matchSeparatedDigits (f ++ t) 10 0 = ⟨f.length, false⟩ := by
      have : Ascii.length_if (f ++ t) (fun c => isDigitBase c 10) = f.length :=
        run_length (fun c hc => (digit_bytes c (hd c hc)).1) fun c hc => (ht c hc).1
      simp [matchSeparatedDigits, matchDigits, this]
    have h1 : startsWith (b!"." ++ (f ++ t)) b!"." = true := by simp [startsWith]
    have h2 : decimalOptions.digitSeparator = 0 := rfl
    have h3 : decimalOptions.nonemptyFraction = false := rfl
    rw [h1]
    simp only [Bool.and_self, if_true, h2, h3]
    rw [show (b!"." ++ (f ++ t)).drop 1 = f ++ t from rfl, hr]
    rw [if_neg]
    · rfl
    · rintro ⟨-, h4, h5⟩
      rcases hi with hi | hi
      · exact hi (List.length_eq_zero_iff.1 h4)
      · obtain ⟨c, u, rfl⟩ := List.exists_cons_of_ne_nil hi
        simp [hd c (by simp)] at h5

theorem common_decimals (hs : sign ∈ [b!"", b!"+", b!"-"]) (hi : i = [] ∨ Digits 10 i)
    (hf : point = [] ∧ f = [] ∨ point = b!"." ∧ (f = [] ∨ Digits 10 f)) (hn : i ≠ [] ∨ f ≠ [])
    (he : e = [] ∧ d = [] ∨ e ∈ [b!"e", b!"e+", b!"e-", b!"E", b!"E+", b!"E-"] ∧ Digits 10 d) (hb : NumberStops b) :
    (matchCommonNumber (sign ++ (i ++ (point ++ (f ++ (e ++ (d ++ b)))))) decimalOptions).length = (sign ++ i ++ point ++ f ++ e ++ d).length ∧
      (matchCommonNumber (sign ++ (i ++ (point ++ (f ++ (e ++ (d ++ b)))))) decimalOptions).erroneous = false := by
  have hid : ∀ c ∈ i, isDigit c = true := by
    rcases hi with rfl | hi
    · simp
    · exact fun c hc => digits_mem c (hi.2 c hc)
  have ht : ∀ c, (e ++ (d ++ b)).head? = some c → isDigitBase c 10 = false ∧ c ≠ c!"." := by
    intro c hc
    rcases he with ⟨rfl, rfl⟩ | ⟨he, -⟩
    · have := stop_bytes c (NumberStops.head hb hc)
      exact ⟨this.1, this.2.2.1⟩
    · simp at he
      rcases he with rfl | rfl | rfl | rfl | rfl | rfl <;> simp at hc <;> subst hc <;> decide
  have ht' : ∀ c, (point ++ (f ++ (e ++ (d ++ b)))).head? = some c → isDigitBase c 10 = false := by
    intro c hc
    rcases hf with ⟨rfl, rfl⟩ | ⟨rfl, -⟩
    · exact (ht c hc).1
    · simp at hc; subst hc; decide
  have h1 : numSign decimalOptions (sign ++ (i ++ (point ++ (f ++ (e ++ (d ++ b)))))) = sign.length := by
    simp at hs
    rcases hs with rfl | rfl | rfl
    · have : ∀ c, (i ++ (point ++ (f ++ (e ++ (d ++ b))))).head? = some c → c ≠ c!"+" ∧ c ≠ c!"-" := by
        intro c hc
        cases i with
        | nil =>
          rcases hf with ⟨rfl, rfl⟩ | ⟨rfl, -⟩
          · simp at hn
          · simp at hc; subst hc; decide
        | cons c' u =>
          simp at hc
          subst hc
          have := digit_bytes c' (hid c' (by simp))
          exact ⟨this.2.1, this.2.2.1⟩
      rw [List.nil_append]
      generalize i ++ (point ++ (f ++ (e ++ (d ++ b)))) = z at this
      cases z with
      | nil => rfl
      | cons c z =>
        have := this c rfl
        simp [numSign, startsWith, decimalOptions]
        grind
    · rfl
    · rfl
  have h2 : ∀ z, numPrefix decimalOptions z = (0, 10, true) := by intro z; simp [numPrefix, decimalOptions]
  have h3 : (sign ++ (i ++ (point ++ (f ++ (e ++ (d ++ b)))))).drop (sign.length + 0) = i ++ (point ++ (f ++ (e ++ (d ++ b)))) := by simp
  have h4 : matchSeparatedDigits (i ++ (point ++ (f ++ (e ++ (d ++ b))))) 10 0 = ⟨i.length, false⟩ := by
    have : Ascii.length_if (i ++ (point ++ (f ++ (e ++ (d ++ b))))) (fun c => isDigitBase c 10) = i.length :=
      run_length (fun c hc => (digit_bytes c (hid c hc)).1) ht'
    simp [matchSeparatedDigits, matchDigits, this]
  have h5 : (sign ++ (i ++ (point ++ (f ++ (e ++ (d ++ b)))))).drop (sign.length + 0 + i.length) = point ++ (f ++ (e ++ (d ++ b))) := by
    rw [Nat.add_zero]; exact drop_two
  have h6 := fraction_reads hf hn ht
  have h7 : (sign ++ (i ++ (point ++ (f ++ (e ++ (d ++ b)))))).drop (sign.length + 0 + i.length + point.length + f.length) = e ++ (d ++ b) := by
    rw [← List.drop_drop, ← List.drop_drop, h5, List.drop_left, List.drop_left]
  have h8 := exponent_reads he hb
  have h9 : decimalOptions.digitSeparator = 0 := rfl
  have h10 : 0 < i.length + f.length := by
    rcases hn with h | h <;> have := List.length_pos_iff.2 h <;> omega
  have ne : sign ++ (i ++ (point ++ (f ++ (e ++ (d ++ b))))) ≠ [] := by
    intro h; have := congrArg List.length h; simp at this; grind
  have h11 : (if (true && decide (sign.length + 0 + i.length + point.length + f.length < (sign ++ (i ++ (point ++ (f ++ (e ++ (d ++ b)))))).length)) = true then
      numExponent decimalOptions (e ++ (d ++ b)) else (0, 0, false)) = (e.length, d.length, false) := by
    split
    · exact h8
    · rename_i h
      simp at h
      rcases he with ⟨rfl, rfl⟩ | ⟨he, hd⟩
      · rfl
      · have := List.length_pos_iff.2 hd.1
        omega
  have h12 : ∀ z, numSuffix decimalOptions z = 0 := fun _ => rfl
  have h13 : ¬ sign.length + 0 + i.length + point.length + f.length = 0 := by omega
  unfold matchCommonNumber
  simp only [ne, if_false, h1, h2, h3, h9, h4, h5, h6, h7, h11, h13, h12, ite_self]
  constructor
  · simp; omega
  · simp [decimalOptions]; omega

theorem matchNumber_decimal (hs : sign ∈ [b!"", b!"+", b!"-"]) (hi : i = [] ∨ Digits 10 i)
    (hf : point = [] ∧ f = [] ∨ point = b!"." ∧ (f = [] ∨ Digits 10 f)) (hn : i ≠ [] ∨ f ≠ [])
    (he : e = [] ∧ d = [] ∨ e ∈ [b!"e", b!"e+", b!"e-", b!"E", b!"E+", b!"E-"] ∧ Digits 10 d) (hb : NumberStops b) :
    (matchNumber (sign ++ (i ++ (point ++ (f ++ (e ++ (d ++ b))))))).length = (sign ++ i ++ point ++ f ++ e ++ d).length ∧
      (matchNumber (sign ++ (i ++ (point ++ (f ++ (e ++ (d ++ b))))))).erroneous = false := by
  have hc := common_decimals hs hi hf hn he hb
  have hid : ∀ c ∈ i, isDigit c = true := by
    rcases hi with rfl | hi
    · simp
    · exact fun c hc => digits_mem c (hi.2 c hc)
  have hft : ∀ c, (point ++ (f ++ (e ++ (d ++ b)))).head? = some c → c ∈ b!"\r\n,[]{}#: .eE" := by
    intro c hc
    rcases hf with ⟨rfl, rfl⟩ | ⟨rfl, -⟩
    · rcases he with ⟨rfl, rfl⟩ | ⟨he, -⟩
      · exact List.mem_append_left b!".eE" (NumberStops.head hb hc)
      · simp at he
        rcases he with rfl | rfl | rfl | rfl | rfl | rfl <;> simp at hc <;> subst hc <;> decide
    · simp at hc; subst hc; decide
  have hpt : i = [] → ∃ c u, isDigit c = true ∧ point ++ (f ++ (e ++ (d ++ b))) = c!"." :: c :: u := by
    intro h0
    rcases hf with ⟨rfl, rfl⟩ | ⟨rfl, hf⟩
    · simp [h0] at hn
    · rcases hf with rfl | hf
      · simp [h0] at hn
      · obtain ⟨c, u, rfl⟩ := List.exists_cons_of_ne_nil hf.1
        exact ⟨c, _, digits_mem c (hf.2 c (by simp)), rfl⟩
  have hpre : (matchCommonNumber (sign ++ (i ++ (point ++ (f ++ (e ++ (d ++ b)))))) prefixedOptions).pre = 0 := by
    by_cases hi0 : i = []
    · obtain ⟨c, u, h1, h2⟩ := hpt hi0
      refine pre_zero fun p hp => ?_
      have h0 : p.str.head? = some c!"0" := by
        have : (prefixedOptions.prefixes.all fun p => p.str.head? == some c!"0") = true := by decide
        simpa using List.all_eq_true.1 this p hp
      apply Bool.eq_false_iff.2
      intro hst
      obtain ⟨z, hz⟩ := startsWith_iff.1 hst
      rw [h2, hi0] at hz
      have h3 := congrArg List.head? hz
      have h4 : p.str ≠ [] := by intro h; simp [h] at h0
      obtain ⟨c0, q, hq⟩ := List.exists_cons_of_ne_nil h4
      rw [hq] at h0 h3
      simp at h0
      subst h0
      simp at hs
      rcases hs with rfl | rfl | rfl <;> simp at h3
    · simp at hs
      rcases hs with rfl | rfl | rfl
      · rw [List.nil_append]
        refine pre_zero (prefixes_second (digit_second hid hi0 fun c hc h => ?_))
        have hx : ∀ c : UInt8, c ∈ b!"\r\n,[]{}#: .eE" → c ∉ b!"xXoObB" := by apply forall_byte; decide +kernel
        exact hx c (hft c hc) h
      all_goals
        refine pre_zero (prefixes_second fun c hc h => ?_)
        have hd : ∀ c : UInt8, isDigit c = true → c ∉ b!"xXoObB" := by apply forall_byte; decide +kernel
        obtain ⟨c', u, rfl⟩ := List.exists_cons_of_ne_nil hi0
        simp at hc
        subst hc
        exact hd _ (hid _ (by simp)) h
  have hsp : specials.findSome? (matchSpecial (sign ++ (i ++ (point ++ (f ++ (e ++ (d ++ b))))))) = none := by
    have hz : ∃ c t, i ++ (point ++ (f ++ (e ++ (d ++ b)))) = c :: t ∧ (isDigit c = true ∨ c = c!"." ∧ ∃ c' t', t = c' :: t' ∧ isDigit c' = true) := by
      cases i with
      | nil =>
        obtain ⟨c, u, h1, h2⟩ := hpt rfl
        exact ⟨c!".", c :: u, h2, .inr ⟨rfl, c, u, rfl, h1⟩⟩
      | cons c u => exact ⟨c, _, rfl, .inl (hid c (by simp))⟩
    obtain ⟨c, t, h1, h2⟩ := hz
    rw [h1]
    have hd : ∀ c : UInt8, isDigit c = true → c ≠ c!"." ∧ c ≠ c!"i" ∧ c ≠ c!"I" ∧ c ≠ c!"n" ∧ c ≠ c!"N" ∧ c ≠ c!"+" ∧ c ≠ c!"-" := by
      apply forall_byte; decide +kernel
    simp at hs
    rcases h2 with h2 | ⟨rfl, c', t', rfl, h2⟩
    · have := hd c h2
      rcases hs with rfl | rfl | rfl
      · exact special_none h2
      all_goals
        simp [specials, matchSpecial, startsWith]
        grind
    · have := hd c' h2
      rcases hs with rfl | rfl | rfl
      all_goals
        simp [specials, matchSpecial, startsWith]
        grind
  have hx : matchSexagesimal (sign ++ (i ++ (point ++ (f ++ (e ++ (d ++ b)))))) = none := by
    simp at hs
    rcases hs with rfl | rfl | rfl
    · rw [List.nil_append]
      by_cases hi0 : i = []
      · obtain ⟨c, u, h1, h2⟩ := hpt hi0
        rw [h2, hi0]
        rfl
      · by_cases hp : point ++ f ++ e ++ d = []
        · simp at hp
          obtain ⟨rfl, rfl, rfl, rfl⟩ := hp
          exact sexagesimal_none hid hb
        · have h1 : Ascii.length_if (i ++ (point ++ (f ++ (e ++ (d ++ b))))) isDigit = i.length := run_length hid fun c hc => by
            have := hft c hc
            have hd : ∀ c : UInt8, c ∈ b!"\r\n,[]{}#: .eE" → isDigit c = false := by apply forall_byte; decide +kernel
            exact hd c this
          have h2 : (i ++ (point ++ (f ++ (e ++ (d ++ b)))))[i.length]? ≠ some c!":" := by
            rw [List.getElem?_append_right (Nat.le_refl _), Nat.sub_self, ← List.head?_eq_getElem?]
            rcases hf with ⟨rfl, rfl⟩ | ⟨rfl, -⟩
            · rcases he with ⟨rfl, rfl⟩ | ⟨he, -⟩
              · simp at hp
              · simp at he
                rcases he with rfl | rfl | rfl | rfl | rfl | rfl <;> simp
            · simp
          unfold matchSexagesimal
          simp only [h1, h2]
          simp
    · rfl
    · rfl
  unfold matchNumber
  rw [hsp, hx]
  simp [hpre]
  simpa using hc

theorem number_head (h : Numeral w b) : ∃ c t, w = c :: t ∧ c ∈ b!"+-.0123456789" := by
  have hd : ∀ c : UInt8, c ∈ digitsOf 10 → c ∈ b!"+-.0123456789" := by apply forall_byte; decide +kernel
  cases h with
  | special h =>
    have : ∀ w ∈ Spec.Yaml.specials, ∃ c t, w = c :: t ∧ c ∈ b!"+-.0123456789" := by simp [Spec.Yaml.specials]
    exact this w h
  | @prefixed pre base ds _ h hd =>
    simp [prefixes] at h
    rcases h with ⟨rfl, rfl⟩ | ⟨rfl, rfl⟩ | ⟨rfl, rfl⟩ | ⟨rfl, rfl⟩ | ⟨rfl, rfl⟩ | ⟨rfl, rfl⟩ <;> exact ⟨_, _, rfl, by decide⟩
  | sexagesimal hu =>
    obtain ⟨c, u, rfl⟩ := List.exists_cons_of_ne_nil hu.1
    exact ⟨c, _, rfl, hd c (hu.2 c (by simp))⟩
  | sexagesimal3 hu =>
    obtain ⟨c, u, rfl⟩ := List.exists_cons_of_ne_nil hu.1
    exact ⟨c, _, rfl, hd c (hu.2 c (by simp))⟩
  | @decimal sign i point f e d _ hs hi hf hn he =>
    simp at hs
    rcases hs with rfl | rfl | rfl
    · rcases hi with rfl | hi
      · rcases hf with ⟨rfl, rfl⟩ | ⟨rfl, -⟩
        · simp at hn
        · exact ⟨_, _, rfl, by decide⟩
      · obtain ⟨c, u, rfl⟩ := List.exists_cons_of_ne_nil hi.1
        exact ⟨c, _, rfl, hd c (hi.2 c (by simp))⟩
    · exact ⟨_, _, rfl, by decide⟩
    · exact ⟨_, _, rfl, by decide⟩

theorem matchNumber_eq (h : Numeral w b) (hb : NumberStops b) :
    (matchNumber (w ++ b)).length = w.length ∧ (matchNumber (w ++ b)).erroneous = false := by
  cases h with
  | special h => exact matchNumber_special h
  | prefixed h hd => exact matchNumber_prefixed h hd hb
  | sexagesimal hu hv hc => exact matchNumber_sexagesimal hu hv hb hc
  | sexagesimal3 hu hv hw => exact matchNumber_sexagesimal3 hu hv hw hb
  | @decimal sign i point f e d _ hs hi hf hn he =>
    have := matchNumber_decimal hs hi hf hn he hb
    rw [show sign ++ i ++ point ++ f ++ e ++ d ++ b = sign ++ (i ++ (point ++ (f ++ (e ++ (d ++ b))))) by simp]
    exact this

theorem number_bytes : ∀ c : UInt8, c ∈ b!"+-.0123456789" → c ≠ c!"~" ∧ c ∉ b!"\"'*" ∧ c ∉ b!" \t\r\n,]}#!&|>[{" ∧
    (words.all fun w => w.1.head? != some c) = true := by
  apply forall_byte; decide +kernel

theorem numberStops_to (h : NumberStops s) : numberStops s = true := by
  cases h with
  | nil => rfl
  | char h => unfold numberStops; simp [plainEnd_iff.2 h]
  | colon h => unfold numberStops; simp [separates_iff.2 h]
  | space h =>
    unfold numberStops
    simp [isFlowIndicator]
    simp at h
    grind

theorem reads_plainScalar_word {ty : HT} (h : (w, ty) ∈ Spec.Yaml.words) (hb : WordStops b) :
    Reads env (plainScalar key) x w [⟨0, w.length, ty⟩] b () x := by
  have hw := (words_mem _).2 h
  have h0 : w ≠ [] ∧ w.head? ≠ some c!"~" := by
    have : (words.all fun w => w.1 != [] && w.1.head? != some c!"~") = true := by decide +kernel
    simpa using List.all_eq_true.1 this _ hw
  have h1 := matchWord_complete hw b
  unfold plainScalar
  refine reads_rem (reads_else ?_ ?_)
  · cases w with
    | nil => simp at h0
    | cons c t => simp [startsWith]; exact fun h => h0.2 (by simp [h])
  · have : ((matchWord (w ++ b)).filter fun z => wordStops ((w ++ b).drop z.1.length)) = some (w, ty) := by
      rw [h1]
      simp [Option.filter, wordStops_iff.2 hb]
    rw [this]
    exact reads_emit rfl h0.1

theorem no_word (h : ∀ w ∈ Spec.Yaml.words, ∀ t, s = w.1 ++ t → ¬ WordStops t) :
    ((matchWord s).filter fun z => wordStops (s.drop z.1.length)) = none := by
  rw [Option.filter_eq_none_iff]
  intro z hz hs
  have := matchWord_some hz
  obtain ⟨t, rfl⟩ := startsWith_iff.1 this.2
  rw [List.drop_left] at hs
  exact h z ((words_mem _).1 this.1) t rfl (wordStops_iff.1 hs)

theorem reads_plainScalar_number (h : Numeral v b) (hb : NumberStops b) :
    Reads env (plainScalar key) x v [⟨0, v.length, .number⟩] b () x := by
  obtain ⟨h1, h2⟩ := matchNumber_eq h hb
  obtain ⟨d, u, rfl, hd⟩ := number_head h
  have h3 := number_bytes d hd
  unfold plainScalar
  refine reads_rem (reads_else (by simp [startsWith]; exact fun h => h3.1 h.symm) ?_)
  rw [no_word (s := d :: u ++ b)]
  · simp only
    refine reads_this ?_ ?_
    · rw [h1, List.drop_left, numberStops_to hb]; simp
    · rw [h1, h2]; exact reads_emit rfl (by simp)
  · rintro z hz t e -
    have := List.all_eq_true.1 h3.2.2.2 z ((words_mem _).2 hz)
    have h0 : z.1 ≠ [] := by
      have : (words.all fun w => w.1 != []) = true := by decide +kernel
      simpa using List.all_eq_true.1 this _ ((words_mem _).2 hz)
    obtain ⟨l, m, hl⟩ := List.exists_cons_of_ne_nil h0
    rw [hl] at e this
    simp at e this
    exact this e.1.symm

theorem reads_plainScalar_plain (ne : a ≠ []) (h : Plain (a ++ b) a.length) (hn : NoNumber (a ++ b)) :
    Reads env (plainScalar key) x a [⟨0, a.length, if key then .markup_attr else .string⟩] b () x := by
  unfold plainScalar
  refine reads_rem (reads_else ?_ ?_)
  · intro hh
    obtain ⟨t, e⟩ := startsWith_iff.1 hh
    exact h.tilde (by rw [e]; rfl)
  · rw [no_word h.word]
    simp only
    refine reads_else ?_ ?_
    · intro hh
      simp at hh
      obtain ⟨w, t, e, hl, hw⟩ := matchNumber_facts hh.1
      rw [hl, e, List.drop_left] at hh
      refine hn w t e ?_ (numberStops_of hh.2)
      split at hw
      · exact .inr hw
      · exact .inl hw
    · have hp := List.length_pos_iff.2 ne
      have hl : plainLength false (a ++ b) = a.length := by
        have hs := plainLength_spec false (a ++ b)
        simp only [Bool.false_or] at hs
        rcases Nat.lt_trichotomy (plainLength false (a ++ b)) a.length with h1 | h1 | h1
        · exact absurd hs.2 (h.inside _ h1)
        · exact h1
        · have := hs.1 _ h1
          simp only [hp, decide_true] at this
          exact absurd h.stops this
      have := reads_emitIf (env := env) (x := x) (a := a) (b := b) (ty := if key then .markup_attr else .string) hl
      exact this.tokens (by simp [opt, ne])

/-! ## Quotation marks -/

theorem matchEscape_ends {w b : Bytes} (h : escapes.Ends w b) : matchEscape (w ++ b) = ⟨w.length, false⟩ ∧ w ≠ [] ∧
    w.head? = some c!"\\" := by
  obtain ⟨c, t, e, _⟩ := h.1
  refine ⟨escape_eq (by decide) (matchEscape_facts ?_).1 h, by simp [e], by simp [e]⟩
  simp [e]

theorem reads_skipSpaces (hb : b.head? ≠ some c!" ") : Reads env skipSpaces x (spaces k) [] b () x := by
  refine reads_rem (reads_advance ?_)
  unfold currentIndent
  refine length_if_eq (longest_of (by simp) fun c hc h => hb ?_) (by simp)
  simp at h
  rw [hc, h]

theorem plain_run (hv : PlainDouble v) (ht : ∀ c, t.head? = some c → c ∈ b!"\"\\\r\n") :
    Ascii.length_if (v ++ t) (fun c => !(b!"\"\\\r\n").contains c) = v.length := by
  refine length_if_eq (longest_of (fun c hc => ?_) fun c hc h => ?_) (by simp)
  · have := hv c hc
    simpa using this
  · have := ht c hc
    simp at h this
    grind

/-- What `doubleStep` does after the plain text. -/
def doubleRest : HM St (Unit ⊕ Unit) := do
  let s ← HM.rem
  match s[0]? with
  | none => pure (.inr ())
  | some c =>
    if c = c!"\"" then do
      HM.emitAdv 1 .string_delim
      pure (.inr ())
    else if c = 0x0D || c = 0x0A then do
      skipLineBreak
      skipSpaces
      pure (.inl ())
    else do
      HM.emitAdv (matchEscape s).length (if (matchEscape s).erroneous then .error else .string_escape)
      pure (.inl ())

theorem doubleStep_reads {z : Unit ⊕ Unit} (hv : PlainDouble v) (ha : ∀ c, (a ++ b).head? = some c → c ∈ b!"\"\\\r\n")
    (h : Reads env doubleRest x a ts b z x) : Reads env doubleStep x (v ++ a) (opt 0 v .string ++ shift v.length ts) b z x := by
  have e : doubleStep = (do
    HM.emitAdvIf (Ascii.length_if (← HM.rem) (fun c => !(b!"\"\\\r\n").contains c)) .string
    doubleRest) := rfl
  rw [e]
  refine reads_rem ?_
  rw [List.append_assoc, plain_run hv ha]
  exact (reads_emitIf rfl).bind h

theorem doubleRest_close : Reads env doubleRest x b!"\"" [⟨0, 1, .string_delim⟩] b (.inr ()) x := by
  unfold doubleRest
  refine reads_rem ?_
  rw [show (b!"\"" ++ b)[0]? = some c!"\"" from rfl]
  have h : Reads env (HM.emitAdv 1 .string_delim : HM St Unit) x b!"\"" [⟨0, 1, .string_delim⟩] b () x := reads_emit rfl (by simp)
  have h' : Reads env (do HM.emitAdv 1 .string_delim; pure (.inr ()) : HM St (Unit ⊕ Unit)) x b!"\"" [⟨0, 1, .string_delim⟩] b (.inr ()) x :=
    h.bind_last reads_pure
  exact reads_this rfl h'

theorem doubleRest_escape (h : escapes.Ends w b) : Reads env doubleRest x w [⟨0, w.length, .string_escape⟩] b (.inl ()) x := by
  obtain ⟨h1, h2, h3⟩ := matchEscape_ends h
  have h4 : (w ++ b)[0]? = some c!"\\" := by
    cases w with
    | nil => exact absurd rfl h2
    | cons c t => simpa using h3
  unfold doubleRest
  refine reads_rem ?_
  rw [h1, h4]
  exact reads_else (by decide) (reads_else (by decide) ((reads_emit rfl h2).bind_last reads_pure))

theorem break_head (h : Break e b) (ne : e ≠ []) : ∃ c, (e ++ b)[0]? = some c ∧ c ∈ b!"\r\n" := by
  rcases h with rfl | rfl | ⟨rfl, -⟩ | ⟨rfl, -⟩
  · exact ⟨_, rfl, by decide⟩
  · exact ⟨_, rfl, by decide⟩
  · exact ⟨_, rfl, by decide⟩
  · exact absurd rfl ne

theorem doubleRest_line (h : Break e (spaces k ++ b)) (ne : e ≠ []) (hb : b.head? ≠ some c!" ") :
    Reads env doubleRest x (e ++ spaces k) [] b (.inl ()) x := by
  obtain ⟨c, h1, hc⟩ := break_head h ne
  unfold doubleRest
  refine reads_rem ?_
  rw [List.append_assoc, h1]
  simp only [List.mem_cons, List.not_mem_nil, or_false] at hc
  refine reads_else (by rcases hc with rfl | rfl <;> decide) (reads_this (by simpa using hc) ?_)
  have h2 := (reads_skipLineBreak (env := env) (x := x) h).bind (f := fun _ => (do skipSpaces; pure (.inl ()) : HM St (Unit ⊕ Unit)))
    ((reads_skipSpaces hb).bind_last reads_pure)
  exact h2.tokens rfl

theorem Double.ne (h : Double a ts b) : a ≠ [] := by
  induction h with
  | close => simp
  | escape _ hw => have := (matchEscape_ends hw).2.1; simp [this]
  | line _ _ _ _ ih => simp [ih]

theorem double_loop (h : Double a ts b) : ∀ m, a.length < m → Reads env (HM.loop m (fun _ => doubleStep) ()) x a ts b () x := by
  induction h with
  | close hv =>
    intro m hm
    exact reads_loop_end (by omega) ((doubleStep_reads hv (by simp) doubleRest_close).tokens (by simp [shift]))
  | @escape v w a ts b hv hw rest ih =>
    intro m hm
    obtain ⟨h1, h2, h3⟩ := matchEscape_ends hw
    have hp := List.length_pos_iff.2 h2
    simp only [List.length_append] at hm
    have := reads_loop (m := m) (c := ()) (c' := ()) (by omega) (doubleStep_reads (env := env) (x := x) (a := w) (b := a ++ b) hv (by
      intro c hc
      cases w with
      | nil => exact absurd rfl h2
      | cons d t => simp at h3 hc; subst hc; subst h3; decide) (doubleRest_escape hw)) (ih (m - 1) (by omega))
    exact this.tokens (by simp [shift])
  | @line v e k a ts b hv he ha rest ih =>
    intro m hm
    have hne := Double.ne rest
    have h2 : e ≠ [] := by
      rintro rfl
      rcases he with h | h | ⟨h, -⟩ | ⟨-, h⟩ <;> simp at h
      exact hne h.2.1
    have hp := List.length_pos_iff.2 h2
    simp only [List.length_append] at hm
    have := reads_loop (m := m) (c := ()) (c' := ()) (by omega) (doubleStep_reads (env := env) (x := x) (a := e ++ spaces k) (b := a ++ b) hv (by
      intro c hc
      obtain ⟨d, h1, hd⟩ := break_head he h2
      rw [← List.head?_eq_getElem?, List.append_assoc, ← List.append_assoc e, hc] at h1
      cases h1
      simp at hd ⊢
      rcases hd with rfl | rfl <;> simp) (doubleRest_line (by simpa using he) h2 (by
        cases a with
        | nil => exact absurd rfl hne
        | cons c t => simpa using ha))) (ih (m - 1) (by omega))
    exact (this.tokens (by simp [shift, Nat.add_assoc])).text (by simp)

theorem reads_double (h : Double a ts b) : Reads env (doubleQuoted false) x (b!"\"" ++ a) ([⟨0, 1, .string_delim⟩] ++ shift 1 ts) b () x := by
  unfold doubleQuoted
  refine reads_rem (reads_check rfl (reads_else (by simp) ?_))
  exact (reads_emit (a := b!"\"") rfl (by simp)).bind (reads_rem (double_loop h _ (by simp; omega)))

/-! ### Single quotation marks -/

theorem singleRun_of (hv : SingleText v) (hl : OneLine v)
    (ht : t = [] ∨ (∃ c u, t = c :: u ∧ c ∈ b!"\r\n") ∨ ∃ u, t = b!"'" ++ u ∧ u.head? ≠ some c!"'") : singleRun (v ++ t) = v.length := by
  induction hv with
  | nil =>
    rcases ht with rfl | ⟨c, u, rfl, hc⟩ | ⟨u, rfl, hu⟩
    · simp [singleRun]
    · simp at hc
      rw [List.nil_append]
      unfold singleRun
      rcases hc with rfl | rfl <;> rfl
    · rw [List.nil_append]
      unfold singleRun
      cases u with
      | nil => rfl
      | cons d u => simp at hu; simp [hu]
  | @char c v h hv ih =>
    have hc := hl c (by simp)
    have := ih fun c hc => hl c (by simp [hc])
    rw [List.cons_append]
    unfold singleRun
    have h1 : c ≠ 13 ∧ c ≠ 10 := ⟨fun e => hc.2 e, fun e => hc.1 e⟩
    simp [h, h1, this]
  | @quote v hv ih =>
    have := ih fun c hc => hl c (by simp [hc])
    show singleRun (c!"'" :: c!"'" :: (v ++ t)) = _
    unfold singleRun
    simp [this]

/-- What `singleStep` does after the text. -/
def singleRest : HM St (Unit ⊕ Unit) := do
  let s ← HM.rem
  match s[0]? with
  | none => pure (.inr ())
  | some c =>
    if c = c!"'" then do
      HM.emitAdv 1 .string_delim
      pure (.inr ())
    else do
      skipLineBreak
      skipSpaces
      pure (.inl ())

theorem singleStep_reads {z : Unit ⊕ Unit} (hv : SingleText v ∧ OneLine v)
    (ha : a ++ b = [] ∨ (∃ c u, a ++ b = c :: u ∧ c ∈ b!"\r\n") ∨ ∃ u, a ++ b = b!"'" ++ u ∧ u.head? ≠ some c!"'")
    (h : Reads env singleRest x a ts b z x) : Reads env singleStep x (v ++ a) (opt 0 v .string ++ shift v.length ts) b z x := by
  have e : singleStep = (do
    HM.emitAdvIf (singleRun (← HM.rem)) .string
    singleRest) := rfl
  rw [e]
  refine reads_rem ?_
  rw [List.append_assoc, singleRun_of hv.1 hv.2 ha]
  exact (reads_emitIf rfl).bind h

theorem singleRest_close : Reads env singleRest x b!"'" [⟨0, 1, .string_delim⟩] b (.inr ()) x := by
  unfold singleRest
  refine reads_rem ?_
  rw [show (b!"'" ++ b)[0]? = some c!"'" from rfl]
  have h : Reads env (HM.emitAdv 1 .string_delim : HM St Unit) x b!"'" [⟨0, 1, .string_delim⟩] b () x := reads_emit rfl (by simp)
  have h' : Reads env (do HM.emitAdv 1 .string_delim; pure (.inr ()) : HM St (Unit ⊕ Unit)) x b!"'" [⟨0, 1, .string_delim⟩] b (.inr ()) x :=
    h.bind_last reads_pure
  exact reads_this rfl h'

theorem singleRest_line (h : Break e (spaces k ++ b)) (ne : e ≠ []) (hb : b.head? ≠ some c!" ") :
    Reads env singleRest x (e ++ spaces k) [] b (.inl ()) x := by
  obtain ⟨c, h1, hc⟩ := break_head h ne
  unfold singleRest
  refine reads_rem ?_
  rw [List.append_assoc, h1]
  simp only [List.mem_cons, List.not_mem_nil, or_false] at hc
  refine reads_else (by rcases hc with rfl | rfl <;> decide) ?_
  have h2 := (reads_skipLineBreak (env := env) (x := x) h).bind (f := fun _ => (do skipSpaces; pure (.inl ()) : HM St (Unit ⊕ Unit)))
    ((reads_skipSpaces hb).bind_last reads_pure)
  exact h2.tokens rfl

theorem Single.ne (h : Single a ts b) : a ≠ [] := by
  induction h with
  | close => simp
  | line _ _ _ _ ih => simp [ih]

theorem single_loop (h : Single a ts b) : ∀ m, a.length < m → Reads env (HM.loop m (fun _ => singleStep) ()) x a ts b () x := by
  induction h with
  | close hv hb =>
    intro m hm
    exact reads_loop_end (by omega) ((singleStep_reads hv (.inr (.inr ⟨_, rfl, hb⟩)) singleRest_close).tokens (by simp [shift]))
  | @line v e k a ts b hv he ha rest ih =>
    intro m hm
    have hne := Single.ne rest
    have h2 : e ≠ [] := by
      rintro rfl
      rcases he with h | h | ⟨h, -⟩ | ⟨-, h⟩ <;> simp at h
      exact hne h.2.1
    have hp := List.length_pos_iff.2 h2
    simp only [List.length_append] at hm
    have := reads_loop (m := m) (c := ()) (c' := ()) (by omega) (singleStep_reads (env := env) (x := x) (a := e ++ spaces k) (b := a ++ b) hv (by
      obtain ⟨d, h1, hd⟩ := break_head he h2
      obtain ⟨c, u, hu⟩ := List.exists_cons_of_ne_nil h2
      rw [hu] at h1 ⊢
      simp at h1
      exact .inr (.inl ⟨c, _, rfl, h1 ▸ hd⟩)) (singleRest_line (by simpa using he) h2 (by
        cases a with
        | nil => exact absurd rfl hne
        | cons c t => simpa using ha))) (ih (m - 1) (by omega))
    exact (this.tokens (by simp [shift, Nat.add_assoc])).text (by simp)

theorem reads_single (h : Single a ts b) : Reads env (singleQuoted false) x (b!"'" ++ a) ([⟨0, 1, .string_delim⟩] ++ shift 1 ts) b () x := by
  unfold singleQuoted
  refine reads_rem (reads_check rfl (reads_else (by simp) ?_))
  exact (reads_emit (a := b!"'") rfl (by simp)).bind (reads_rem (single_loop h _ (by simp; omega)))

/-! ### Keys -/

theorem doubleKey_of (h : DoubleText v) : doubleKey (v ++ b!"\"" ++ b) = v.length + 1 := by
  induction h with
  | nil =>
    show doubleKey (c!"\"" :: b) = _
    unfold doubleKey
    simp
  | @char c v h hv ih =>
    simp at h
    rw [List.cons_append, List.cons_append]
    unfold doubleKey
    rw [ih]
    simp [h]
  | @escape c v hv ih =>
    show doubleKey (c!"\\" :: c :: (v ++ b!"\"" ++ b)) = _
    unfold doubleKey
    exact congrArg (· + 2) ih

theorem singleKey_of (h : SingleText v) (hb : b.head? ≠ some c!"'") : singleKey (v ++ b!"'" ++ b) = v.length + 1 := by
  induction h with
  | nil =>
    show singleKey (c!"'" :: b) = _
    unfold singleKey
    cases b with
    | nil => rfl
    | cons c t => simp at hb; simp [hb]
  | @char c v h hv ih =>
    rw [List.cons_append, List.cons_append]
    unfold singleKey
    rw [ih]
    simp [h]
  | @quote v hv ih =>
    show singleKey (c!"'" :: c!"'" :: (v ++ b!"'" ++ b)) = _
    unfold singleKey
    exact congrArg (· + 2) ih

theorem reads_doubleKey (h : DoubleText v) :
    Reads env (doubleQuoted true) x (b!"\"" ++ v ++ b!"\"") [⟨0, v.length + 2, .markup_attr⟩] b () x := by
  unfold doubleQuoted
  refine reads_rem (reads_check rfl (reads_this rfl ?_))
  have : ((b!"\"" ++ v ++ b!"\"" ++ b).drop 1) = v ++ b!"\"" ++ b := by simp
  rw [this, doubleKey_of h]
  exact reads_emit (by simp) (by simp)

theorem reads_singleKey (h : SingleText v) (hb : b.head? ≠ some c!"'") :
    Reads env (singleQuoted true) x (b!"'" ++ v ++ b!"'") [⟨0, v.length + 2, .markup_attr⟩] b () x := by
  unfold singleQuoted
  refine reads_rem (reads_check rfl (reads_this rfl ?_))
  have : ((b!"'" ++ v ++ b!"'" ++ b).drop 1) = v ++ b!"'" ++ b := by simp
  rw [this, singleKey_of h hb]
  exact reads_emit (by simp) (by simp)

theorem wordEnd_iff {c : UInt8} : isWordEnd c = false ↔ ¬ WordEnd c := by
  unfold isWordEnd WordEnd
  simp

theorem reads_alias (h : Longest (fun c => ¬ WordEnd c) (v ++ b) v.length) :
    Reads env reference x (b!"*" ++ v) ([⟨0, 1, .name_attr_delim⟩] ++ opt 1 v .name) b () x := by
  unfold reference
  refine reads_rem ?_
  have : nameLength (b!"*" ++ v ++ b) = v.length := by
    unfold nameLength
    exact length_if_not_eq (fun c => wordEnd_iff) (by simpa using h) (by simp)
  rw [this]
  have h2 := (reads_emit (env := env) (x := x) (a := b!"*") (b := v ++ b) (n := 1) (ty := .name_attr_delim) (mode := .normal) rfl (by simp)).bind
    (f := fun _ => (HM.emitAdvIf v.length .name : HM St Unit)) (reads_emitIf rfl)
  exact h2.tokens (by rw [shift_opt']; rfl)

theorem flowScalar_plain (hc : a.head? = some c) (h : c ∉ b!"\"'*") (hr : Reads env (plainScalar key) x a ts b () x) :
    Reads env (flowScalar key) x a ts b () x := by
  cases a with
  | nil => simp at hc
  | cons d t =>
    simp at hc
    subst hc
    simp only [List.mem_cons, List.not_mem_nil, or_false, not_or] at h
    exact reads_rem (reads_else h.1 (reads_else h.2.1 (reads_else h.2.2 hr)))

theorem reads_scalar (h : Scalar key a ts b) : Reads env (flowScalar key) x a ts b () x := by
  cases h with
  | tilde =>
    refine flowScalar_plain (c := c!"~") rfl (by decide) ?_
    exact reads_rem (reads_this rfl (reads_emit rfl (by simp)))
  | word h hb =>
    have : (words.all fun w => w.1.head?.any fun c => !(b!"\"'*").contains c) = true := by decide +kernel
    have := List.all_eq_true.1 this _ ((words_mem _).2 h)
    cases a with
    | nil => simp at this
    | cons c t =>
      refine flowScalar_plain (c := c) rfl ?_ (reads_plainScalar_word h hb)
      simpa using this
  | number h hb =>
    obtain ⟨d, u, rfl, hd⟩ := number_head h
    exact flowScalar_plain rfl (number_bytes d hd).2.1 (reads_plainScalar_number h hb)
  | plain ne first h n =>
    obtain ⟨d, u, rfl⟩ := List.exists_cons_of_ne_nil ne
    refine flowScalar_plain rfl (fun hm => first d rfl ?_) (reads_plainScalar_plain ne h n)
    simp at hm ⊢
    rcases hm with rfl | rfl | rfl <;> simp
  | alias h => exact reads_rem (reads_else (by decide) (reads_else (by decide) (reads_this rfl (reads_alias h))))
  | double h => exact reads_rem (reads_this rfl (reads_double h))
  | single h => exact reads_rem (reads_else (by decide) (reads_this rfl (reads_single h)))
  | doubleKey h => exact reads_rem (reads_this rfl (reads_doubleKey h))
  | singleKey h hb => exact reads_rem (reads_else (by decide) (reads_this rfl (reads_singleKey h hb)))

end Ulight.Yaml
