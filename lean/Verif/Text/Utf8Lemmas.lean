import Verif.Text.Utf8
import Verif.Spec.Utf8

/-!
# Lemmas about the UTF-8 model
-/

namespace Ulight

/-- A decidable predicate on bytes holds for all bytes if it holds for the 256 numerals. -/
theorem forall_byte {p : UInt8 → Prop} (h : ∀ n, n < 256 → p (UInt8.ofNat n)) (c : UInt8) : p c := by
  have := h c.toNat c.toNat_lt
  simpa using this

namespace Utf8
open Spec

theorem sequenceLength_eq (c : UInt8) :
    sequenceLength c =
      if c.toNat < 0x80 then 1
      else if 0xC2 ≤ c.toNat ∧ c.toNat < 0xE0 then 2
      else if 0xE0 ≤ c.toNat ∧ c.toNat < 0xF0 then 3
      else if 0xF0 ≤ c.toNat ∧ c.toNat < 0xF5 then 4 else 0 := by
  revert c; apply forall_byte; decide +kernel

theorem uncheckedSequenceLength_eq (c : UInt8) :
    uncheckedSequenceLength c =
      if c.toNat < 0x80 then 1
      else if 0xC0 ≤ c.toNat ∧ c.toNat < 0xE0 then 2
      else if 0xE0 ≤ c.toNat ∧ c.toNat < 0xF0 then 3
      else if 0xF0 ≤ c.toNat ∧ c.toNat < 0xF8 then 4 else 0 := by
  revert c; apply forall_byte; decide +kernel

theorem isCont_iff (b : UInt8) : b &&& 0xC0 = 0x80 ↔ 0x80 ≤ b.toNat ∧ b.toNat < 0xC0 := by
  revert b; apply forall_byte; decide +kernel

theorem mask80_iff (b : UInt8) : b &&& 0x80 = 0 ↔ b.toNat < 0x80 := by
  revert b; apply forall_byte; decide +kernel

theorem maskE0_iff (b : UInt8) : b &&& 0xE0 = 0xC0 ↔ 0xC0 ≤ b.toNat ∧ b.toNat < 0xE0 := by
  revert b; apply forall_byte; decide +kernel

theorem maskF0_iff (b : UInt8) : b &&& 0xF0 = 0xE0 ↔ 0xE0 ≤ b.toNat ∧ b.toNat < 0xF0 := by
  revert b; apply forall_byte; decide +kernel

theorem maskF8_iff (b : UInt8) : b &&& 0xF8 = 0xF0 ↔ 0xF0 ≤ b.toNat ∧ b.toNat < 0xF8 := by
  revert b; apply forall_byte; decide +kernel

theorem and3f (b : UInt8) : (b &&& 0x3f).toNat = b.toNat % 64 := by
  revert b; apply forall_byte; decide +kernel

theorem and1f (b : UInt8) : (b &&& 0x1f).toNat = b.toNat % 32 := by
  revert b; apply forall_byte; decide +kernel

theorem and0f (b : UInt8) : (b &&& 0x0f).toNat = b.toNat % 16 := by
  revert b; apply forall_byte; decide +kernel

theorem and07 (b : UInt8) : (b &&& 0x07).toNat = b.toNat % 8 := by
  revert b; apply forall_byte; decide +kernel

theorem eq_of_toNat {a : UInt8} {n : Nat} (h : a.toNat = n) : UInt8.ofNat n = a := by
  subst h; simp

theorem isValidSecond_iff (a b : UInt8) :
    isValidSecond a b = true ↔ (0x80 ≤ b.toNat ∧ b.toNat < 0xC0) ∧
      (a.toNat = 0xE0 → 0xA0 ≤ b.toNat) ∧ (a.toNat = 0xED → b.toNat < 0xA0) ∧
      (a.toNat = 0xF0 → 0x90 ≤ b.toNat) ∧ (a.toNat = 0xF4 → b.toNat ≤ 0x8F) := by
  unfold isValidSecond
  have e : ∀ n : UInt8, a = n ↔ a.toNat = n.toNat := fun n => UInt8.toNat_inj.symm
  simp only [ne_eq, isCont_iff, e, UInt8.lt_iff_toNat_lt, ge_iff_le, UInt8.le_iff_toNat_le, gt_iff_lt,
    show (0xE0 : UInt8).toNat = 0xE0 from rfl, show (0xED : UInt8).toNat = 0xED from rfl,
    show (0xF0 : UInt8).toNat = 0xF0 from rfl, show (0xF4 : UInt8).toNat = 0xF4 from rfl,
    show (0xA0 : UInt8).toNat = 0xA0 from rfl, show (0x90 : UInt8).toNat = 0x90 from rfl,
    show (0x8F : UInt8).toNat = 0x8F from rfl]
  split
  · simp; omega
  split
  · simp; omega
  split
  · simp; omega
  split
  · simp; omega
  split
  · simp; omega
  · simp; omega

theorem or_add {i a b : Nat} (h : b < 2 ^ i) : (a <<< i) ||| b = a * 2 ^ i + b := by
  rw [← Nat.shiftLeft_add_eq_or_of_lt h, Nat.shiftLeft_eq]

theorem decodeUnchecked_two (s : Nat → UInt8) :
    decodeUnchecked s 2 = (s 0).toNat % 32 * 64 + (s 1).toNat % 64 := by
  unfold decodeUnchecked
  simp only [and1f, and3f]
  rw [or_add (by omega)]

theorem decodeUnchecked_three (s : Nat → UInt8) :
    decodeUnchecked s 3 =
      (s 0).toNat % 16 * 4096 + (s 1).toNat % 64 * 64 + (s 2).toNat % 64 := by
  unfold decodeUnchecked
  simp only [and0f, and3f]
  have h1 : ((s 0).toNat % 16) <<< 12 ||| ((s 1).toNat % 64) <<< 6
      = (((s 0).toNat % 16) * 64 + (s 1).toNat % 64) <<< 6 := by
    rw [or_add (by rw [Nat.shiftLeft_eq]; omega), Nat.shiftLeft_eq, Nat.shiftLeft_eq]; omega
  rw [h1, or_add (by omega)]; omega

theorem decodeUnchecked_four (s : Nat → UInt8) :
    decodeUnchecked s 4 =
      (s 0).toNat % 8 * 262144 + (s 1).toNat % 64 * 4096 + (s 2).toNat % 64 * 64
        + (s 3).toNat % 64 := by
  unfold decodeUnchecked
  simp only [and07, and3f]
  have h1 : ((s 0).toNat % 8) <<< 18 ||| ((s 1).toNat % 64) <<< 12
      = (((s 0).toNat % 8) * 64 + (s 1).toNat % 64) <<< 12 := by
    rw [or_add (by rw [Nat.shiftLeft_eq]; omega), Nat.shiftLeft_eq, Nat.shiftLeft_eq]; omega
  have h2 : ((((s 0).toNat % 8) * 64 + (s 1).toNat % 64) <<< 12) ||| ((s 2).toNat % 64) <<< 6
      = ((((s 0).toNat % 8) * 64 + (s 1).toNat % 64) * 64 + (s 2).toNat % 64) <<< 6 := by
    rw [or_add (by rw [Nat.shiftLeft_eq]; omega), Nat.shiftLeft_eq, Nat.shiftLeft_eq]; omega
  rw [h1, h2, or_add (by omega)]; omega

/-! ## Shapes of encodings -/

/-- The byte sequences that encode a scalar value, by inspection of the bytes (table 3-7). -/
inductive Enc : Nat → Bytes → Prop where
  | one (a : UInt8) (h : a.toNat < 0x80) : Enc a.toNat [a]
  | two (a b : UInt8) (ha : 0xC2 ≤ a.toNat ∧ a.toNat < 0xE0) (hb : 0x80 ≤ b.toNat ∧ b.toNat < 0xC0) :
      Enc (a.toNat % 32 * 64 + b.toNat % 64) [a, b]
  | three (a b c : UInt8) (ha : 0xE0 ≤ a.toNat ∧ a.toNat < 0xF0) (hb : isValidSecond a b = true)
      (hc : 0x80 ≤ c.toNat ∧ c.toNat < 0xC0) :
      Enc (a.toNat % 16 * 4096 + b.toNat % 64 * 64 + c.toNat % 64) [a, b, c]
  | four (a b c d : UInt8) (ha : 0xF0 ≤ a.toNat ∧ a.toNat < 0xF5) (hb : isValidSecond a b = true)
      (hc : 0x80 ≤ c.toNat ∧ c.toNat < 0xC0) (hd : 0x80 ≤ d.toNat ∧ d.toNat < 0xC0) :
      Enc (a.toNat % 8 * 262144 + b.toNat % 64 * 4096 + c.toNat % 64 * 64 + d.toNat % 64) [a, b, c, d]

theorem Enc.scalar {c : Nat} {p : Bytes} (h : Enc c p) : IsScalar c ∧ utf8 c = p := by
  cases h with
  | one a h => exact ⟨by unfold IsScalar; omega, by simp [utf8, h]⟩
  | two a b ha hb =>
    refine ⟨by unfold IsScalar; omega, ?_⟩
    unfold utf8
    rw [if_neg (by omega), if_pos (by omega), eq_of_toNat (a := a) (by omega),
      eq_of_toNat (a := b) (by omega)]
  | three a b c ha hb hc =>
    rw [isValidSecond_iff] at hb
    refine ⟨by unfold IsScalar; omega, ?_⟩
    unfold utf8
    rw [if_neg (by omega), if_neg (by omega), if_pos (by omega), eq_of_toNat (a := a) (by omega),
      eq_of_toNat (a := b) (by omega), eq_of_toNat (a := c) (by omega)]
  | four a b c d ha hb hc hd =>
    rw [isValidSecond_iff] at hb
    refine ⟨by unfold IsScalar; omega, ?_⟩
    unfold utf8
    rw [if_neg (by omega), if_neg (by omega), if_neg (by omega), eq_of_toNat (a := a) (by omega),
      eq_of_toNat (a := b) (by omega), eq_of_toNat (a := c) (by omega),
      eq_of_toNat (a := d) (by omega)]

theorem toNat_ofNat {n : Nat} (h : n < 256) : (UInt8.ofNat n).toNat = n := by
  simp [UInt8.toNat_ofNat', Nat.mod_eq_of_lt h]

theorem enc_utf8 {c : Nat} (h : IsScalar c) : Enc c (utf8 c) := by
  unfold IsScalar at h
  unfold utf8
  split
  · have := Enc.one (UInt8.ofNat c) (by rw [toNat_ofNat] <;> omega)
    rwa [toNat_ofNat (by omega)] at this
  split
  · have := Enc.two (UInt8.ofNat (0xC0 + c / 64)) (UInt8.ofNat (0x80 + c % 64))
      (by rw [toNat_ofNat] <;> omega) (by rw [toNat_ofNat] <;> omega)
    rw [toNat_ofNat (by omega), toNat_ofNat (by omega)] at this
    have e : (0xC0 + c / 64) % 32 * 64 + (0x80 + c % 64) % 64 = c := by omega
    rwa [e] at this
  split
  · have := Enc.three (UInt8.ofNat (0xE0 + c / 4096)) (UInt8.ofNat (0x80 + c / 64 % 64))
      (UInt8.ofNat (0x80 + c % 64)) (by rw [toNat_ofNat] <;> omega)
      (by rw [isValidSecond_iff, toNat_ofNat (by omega), toNat_ofNat (by omega)]; omega)
      (by rw [toNat_ofNat] <;> omega)
    rw [toNat_ofNat (by omega), toNat_ofNat (by omega), toNat_ofNat (by omega)] at this
    have e : (0xE0 + c / 4096) % 16 * 4096 + (0x80 + c / 64 % 64) % 64 * 64 + (0x80 + c % 64) % 64 = c := by
      omega
    rwa [e] at this
  · have := Enc.four (UInt8.ofNat (0xF0 + c / 262144)) (UInt8.ofNat (0x80 + c / 4096 % 64))
      (UInt8.ofNat (0x80 + c / 64 % 64))
      (UInt8.ofNat (0x80 + c % 64)) (by rw [toNat_ofNat] <;> omega)
      (by rw [isValidSecond_iff, toNat_ofNat (by omega), toNat_ofNat (by omega)]; omega)
      (by rw [toNat_ofNat] <;> omega) (by rw [toNat_ofNat] <;> omega)
    rw [toNat_ofNat (by omega), toNat_ofNat (by omega), toNat_ofNat (by omega),
      toNat_ofNat (by omega)] at this
    have e : (0xF0 + c / 262144) % 8 * 262144 + (0x80 + c / 4096 % 64) % 64 * 4096
        + (0x80 + c / 64 % 64) % 64 * 64 + (0x80 + c % 64) % 64 = c := by omega
    rwa [e] at this

theorem enc_iff {c : Nat} {p : Bytes} : Enc c p ↔ IsScalar c ∧ utf8 c = p :=
  ⟨Enc.scalar, fun ⟨h, e⟩ => e ▸ enc_utf8 h⟩

/-! ## Decoding -/

theorem contBeq (b : UInt8) : ((b &&& 0xC0 == 0x80) = true) ↔ 0x80 ≤ b.toNat ∧ b.toNat < 0xC0 := by
  rw [beq_iff_eq, isCont_iff]

/-- What lenient decoding does on a string, by cases: either an encoding is at the front, or the
replacement character is produced, together with the reason. -/
inductive Dec : Bytes → Nat × Nat → Prop where
  | enc {c p} (rest : Bytes) (h : Enc c p) : Dec (p ++ rest) (c, p.length)
  | lead (a : UInt8) (rest : Bytes) (h : sequenceLength a = 0) : Dec (a :: rest) (replacement, 1)
  | second (a : UInt8) (rest : Bytes) (ha : 2 ≤ sequenceLength a)
      (hb : ∀ b ∈ rest.head?, isValidSecond a b = false) : Dec (a :: rest) (replacement, 1)
  | third (a b : UInt8) (rest : Bytes) (ha : 3 ≤ sequenceLength a) (hb : isValidSecond a b = true)
      (hc : ∀ c ∈ rest.head?, ¬ (0x80 ≤ c.toNat ∧ c.toNat < 0xC0)) :
      Dec (a :: b :: rest) (replacement, 2)
  | fourth (a b c : UInt8) (rest : Bytes) (ha : sequenceLength a = 4) (hb : isValidSecond a b = true)
      (hc : 0x80 ≤ c.toNat ∧ c.toNat < 0xC0)
      (hd : ∀ d ∈ rest.head?, ¬ (0x80 ≤ d.toNat ∧ d.toNat < 0xC0)) :
      Dec (a :: b :: c :: rest) (replacement, 3)

theorem isValidSecond_cont {a b : UInt8} (h : isValidSecond a b = true) :
    0x80 ≤ b.toNat ∧ b.toNat < 0xC0 := ((isValidSecond_iff a b).1 h).1

theorem seqLen_one {a : UInt8} : sequenceLength a = 1 ↔ a.toNat < 0x80 := by
  rw [sequenceLength_eq]; grind
theorem seqLen_two {a : UInt8} : sequenceLength a = 2 ↔ 0xC2 ≤ a.toNat ∧ a.toNat < 0xE0 := by
  rw [sequenceLength_eq]; grind
theorem seqLen_three {a : UInt8} : sequenceLength a = 3 ↔ 0xE0 ≤ a.toNat ∧ a.toNat < 0xF0 := by
  rw [sequenceLength_eq]; grind
theorem seqLen_four {a : UInt8} : sequenceLength a = 4 ↔ 0xF0 ≤ a.toNat ∧ a.toNat < 0xF5 := by
  rw [sequenceLength_eq]; grind
theorem seqLen_le (a : UInt8) : sequenceLength a ≤ 4 := by
  rw [sequenceLength_eq]; grind

theorem isValidSecond_two {a b : UInt8} (h : sequenceLength a = 2) :
    isValidSecond a b = true ↔ 0x80 ≤ b.toNat ∧ b.toNat < 0xC0 := by
  rw [seqLen_two] at h
  rw [isValidSecond_iff]; omega

theorem dec_decodeOrReplacement (s : Bytes) (h : s ≠ []) : Dec s (decodeOrReplacement s) := by
  obtain _ | ⟨a, rest⟩ := s
  · exact absurd rfl h
  unfold decodeOrReplacement
  simp only []
  split
  · exact .lead _ _ ‹_›
  rename_i h0
  have hle := seqLen_le a
  have h4 : sequenceLength a = 1 ∨ sequenceLength a = 2 ∨ sequenceLength a = 3 ∨ sequenceLength a = 4 := by
    omega
  rcases h4 with h1 | h1 | h1 | h1
  · simp only [h1, Nat.sub_self, validPrefix, if_true]
    have := Dec.enc rest (Enc.one a (seqLen_one.1 h1))
    simpa [decodeUnchecked, padded] using this
  · simp only [h1, show 2 - 1 = 1 from rfl]
    obtain _ | ⟨b, rest⟩ := rest
    · simpa [validPrefix] using Dec.second a [] (by omega) (by simp)
    simp only [validPrefix, if_true]
    by_cases hb : isValidSecond a b = true
    · rw [if_pos hb]
      have := Dec.enc rest (Enc.two a b (seqLen_two.1 h1) (isValidSecond_cont hb))
      simpa [decodeUnchecked_two, padded] using this
    · rw [if_neg hb]
      simpa using Dec.second a (b :: rest) (by omega) (by simpa using hb)
  · simp only [h1, show 3 - 1 = 2 from rfl]
    obtain _ | ⟨b, rest⟩ := rest
    · simpa [validPrefix] using Dec.second a [] (by omega) (by simp)
    simp only [validPrefix, if_true]
    by_cases hb : isValidSecond a b = true
    · rw [if_pos hb]
      obtain _ | ⟨c, rest⟩ := rest
      · simpa [validPrefix] using Dec.third a b [] (by omega) hb (by simp)
      simp only [validPrefix]
      by_cases hc : (c &&& 0xC0 == 0x80) = true
      · have := Dec.enc rest (Enc.three a b c (seqLen_three.1 h1) hb ((contBeq c).1 hc))
        simpa [hc, decodeUnchecked_three, padded] using this
      · have := Dec.third a b (c :: rest) (by omega) hb (fun x hx => by simp at hx; subst hx; rwa [← contBeq])
        simpa [hc] using this
    · rw [if_neg hb]
      simpa using Dec.second a (b :: rest) (by omega) (by simpa using hb)
  · simp only [h1, show 4 - 1 = 3 from rfl]
    obtain _ | ⟨b, rest⟩ := rest
    · simpa [validPrefix] using Dec.second a [] (by omega) (by simp)
    simp only [validPrefix, if_true]
    by_cases hb : isValidSecond a b = true
    · rw [if_pos hb]
      obtain _ | ⟨c, rest⟩ := rest
      · simpa [validPrefix] using Dec.third a b [] (by omega) hb (by simp)
      simp only [validPrefix]
      by_cases hc : (c &&& 0xC0 == 0x80) = true
      · obtain _ | ⟨d, rest⟩ := rest
        · simpa [hc, validPrefix] using Dec.fourth a b c [] h1 hb ((contBeq c).1 hc) (by simp)
        by_cases hd : (d &&& 0xC0 == 0x80) = true
        · have := Dec.enc rest (Enc.four a b c d (seqLen_four.1 h1) hb ((contBeq c).1 hc) ((contBeq d).1 hd))
          simpa [hc, hd, validPrefix, decodeUnchecked_four, padded] using this
        · have := Dec.fourth a b c (d :: rest) h1 hb ((contBeq c).1 hc) (fun x hx => by simp at hx; subst hx; rwa [← contBeq])
          simpa [hc, hd, validPrefix] using this
      · have := Dec.third a b (c :: rest) (by omega) hb (fun x hx => by simp at hx; subst hx; rwa [← contBeq])
        simpa [hc] using this
    · rw [if_neg hb]
      simpa using Dec.second a (b :: rest) (by omega) (by simpa using hb)

theorem enc_length {c : Nat} {p : Bytes} (h : Enc c p) : 1 ≤ p.length ∧ p.length ≤ 4 := by
  cases h <;> simp

theorem enc_ne_nil {c : Nat} {p : Bytes} (h : Enc c p) : p ≠ [] := by
  cases h <;> simp

/-- The first byte determines the length. -/
theorem enc_seqLen {c : Nat} {a : UInt8} {p : Bytes} (h : Enc c (a :: p)) :
    sequenceLength a = p.length + 1 := by
  cases h with
  | one _ h => exact seqLen_one.2 h
  | two _ _ h => exact seqLen_two.2 h
  | three _ _ _ h => exact seqLen_three.2 h
  | four _ _ _ _ h => exact seqLen_four.2 h

theorem enc_second {c : Nat} {a b : UInt8} {p : Bytes} (h : Enc c (a :: b :: p)) :
    isValidSecond a b = true := by
  cases h with
  | two _ _ h hb => exact (isValidSecond_two (seqLen_two.2 h)).2 hb
  | three _ _ _ _ hb => exact hb
  | four _ _ _ _ _ hb => exact hb

theorem enc_third {c : Nat} {a b d : UInt8} {p : Bytes} (h : Enc c (a :: b :: d :: p)) :
    0x80 ≤ d.toNat ∧ d.toNat < 0xC0 := by
  cases h <;> assumption

theorem enc_fourth {c : Nat} {a b d e : UInt8} {p : Bytes} (h : Enc c (a :: b :: d :: e :: p)) :
    0x80 ≤ e.toNat ∧ e.toNat < 0xC0 := by
  cases h; assumption

/-- Encodings are determined by the string they start. -/
theorem enc_unique {c c' : Nat} {p p' : Bytes} (h : Enc c p) (h' : Enc c' p') {r r' : Bytes}
    (e : p ++ r = p' ++ r') : c = c' ∧ p = p' ∧ r = r' := by
  have hl : p.length = p'.length := by
    obtain _ | ⟨a, p⟩ := p
    · exact absurd rfl (enc_ne_nil h)
    obtain _ | ⟨a', p'⟩ := p'
    · exact absurd rfl (enc_ne_nil h')
    simp only [List.cons_append, List.cons.injEq] at e
    have h1 := enc_seqLen h
    have h2 := enc_seqLen h'
    rw [e.1] at h1
    simp only [List.length_cons]; omega
  have := List.append_inj e hl
  refine ⟨?_, this⟩
  rw [← this.1] at h'
  cases h <;> cases h' <;> rfl

theorem dec_of_enc {c : Nat} {p rest : Bytes} (h : Enc c p) {r : Nat × Nat}
    (hd : Dec (p ++ rest) r) : r = (c, p.length) := by
  generalize hs : p ++ rest = s at hd
  cases hd with
  | enc rest' h' =>
    obtain ⟨rfl, rfl, _⟩ := enc_unique h h' hs
    rfl
  | lead a rest' ha =>
    obtain _ | ⟨a', p⟩ := p
    · exact absurd rfl (enc_ne_nil h)
    have := enc_seqLen h
    grind
  | second a rest' ha hb =>
    obtain _ | ⟨a', _ | ⟨b', p⟩⟩ := p
    · exact absurd rfl (enc_ne_nil h)
    · have := enc_seqLen h
      grind
    · have := enc_second h
      simp only [List.cons_append, List.cons.injEq] at hs
      have := hb b' (by simp [← hs.2])
      grind
  | third a b rest' ha hb hc =>
    obtain _ | ⟨a', _ | ⟨b', _ | ⟨c', p⟩⟩⟩ := p
    · exact absurd rfl (enc_ne_nil h)
    · have := enc_seqLen h
      grind
    · have := enc_seqLen h
      grind
    · have := enc_third h
      simp only [List.cons_append, List.cons.injEq] at hs
      exact absurd this (hc c' (by simp [← hs.2.2]))
  | fourth a b c rest' ha hb hc hd =>
    obtain _ | ⟨a', _ | ⟨b', _ | ⟨c', _ | ⟨d', p⟩⟩⟩⟩ := p
    · exact absurd rfl (enc_ne_nil h)
    · have := enc_seqLen h
      grind
    · have := enc_seqLen h
      grind
    · have := enc_seqLen h
      grind
    · have := enc_fourth h
      simp only [List.cons_append, List.cons.injEq] at hs
      exact absurd this (hd d' (by simp [← hs.2.2.2]))

theorem decodeOrReplacement_enc {c : Nat} {p : Bytes} (h : Enc c p) (rest : Bytes) :
    decodeOrReplacement (p ++ rest) = (c, p.length) :=
  dec_of_enc h (dec_decodeOrReplacement _ (by simp [enc_ne_nil h]))

theorem decodeOrReplacement_length {s : Bytes} (h : s ≠ []) :
    1 ≤ (decodeOrReplacement s).2 ∧ (decodeOrReplacement s).2 ≤ 4 ∧
      (decodeOrReplacement s).2 ≤ s.length := by
  have := dec_decodeOrReplacement s h
  generalize decodeOrReplacement s = r at this
  cases this with
  | enc rest he => have := enc_length he; simp; omega
  | lead => simp
  | second => simp
  | third => simp
  | fourth => simp

/-- The array overload agrees with the view overload. -/
theorem decodeOrReplacement4_eq (a b c d : UInt8) (rest : Bytes) :
    decodeOrReplacement4 a b c d = decodeOrReplacement (a :: b :: c :: d :: rest) := by
  unfold decodeOrReplacement4 decodeOrReplacement
  have hle := seqLen_le a
  have hv : ∀ n ≤ 3, ∀ r, validPrefix a 1 n [b, c, d] = validPrefix a 1 n (b :: c :: d :: r) := by
    intro n hn r
    have : n = 0 ∨ n = 1 ∨ n = 2 ∨ n = 3 := by omega
    rcases this with rfl | rfl | rfl | rfl <;> simp [validPrefix]
  have hd : ∀ n ≤ 4, decodeUnchecked (padded [a, b, c, d]) n
      = decodeUnchecked (padded (a :: b :: c :: d :: rest)) n := by
    intro n hn
    have : n = 0 ∨ n = 1 ∨ n = 2 ∨ n = 3 ∨ n = 4 := by omega
    rcases this with rfl | rfl | rfl | rfl | rfl <;> simp [decodeUnchecked, padded]
  simp only [hv _ (show sequenceLength a - 1 ≤ 3 by omega) rest, hd _ hle]

/-! ## Strict decoding -/

theorem isValidArray_two {a b : UInt8} {s : Nat → UInt8} (h0 : s 0 = a) (h1 : s 1 = b)
    (ha : sequenceLength a = 2) : isValidArray s 2 = true ↔ isValidSecond a b = true := by
  have e := seqLen_two.1 ha
  rw [isValidSecond_two ha]
  simp only [isValidArray, expectationMasks, expectationValues, h0, h1]
  simp [isCont_iff, maskE0_iff, UInt8.lt_iff_toNat_lt]
  omega

theorem isValidArray_three {a b c : UInt8} {s : Nat → UInt8} (h0 : s 0 = a) (h1 : s 1 = b)
    (h2 : s 2 = c) (ha : sequenceLength a = 3) :
    isValidArray s 3 = true ↔ isValidSecond a b = true ∧ 0x80 ≤ c.toNat ∧ c.toNat < 0xC0 := by
  have e := seqLen_three.1 ha
  rw [isValidSecond_iff]
  simp only [isValidArray, expectationMasks, expectationValues, h0, h1, h2]
  have eq : ∀ n : UInt8, a = n ↔ a.toNat = n.toNat := fun n => UInt8.toNat_inj.symm
  simp [isCont_iff, maskF0_iff, UInt8.lt_iff_toNat_lt, UInt8.le_iff_toNat_le, eq]
  omega

theorem isValidArray_four {a b c d : UInt8} {s : Nat → UInt8} (h0 : s 0 = a) (h1 : s 1 = b)
    (h2 : s 2 = c) (h3 : s 3 = d) (ha : sequenceLength a = 4) :
    isValidArray s 4 = true ↔ isValidSecond a b = true ∧ (0x80 ≤ c.toNat ∧ c.toNat < 0xC0) ∧
      0x80 ≤ d.toNat ∧ d.toNat < 0xC0 := by
  have e := seqLen_four.1 ha
  rw [isValidSecond_iff]
  simp only [isValidArray, expectationMasks, expectationValues, h0, h1, h2, h3]
  have eq : ∀ n : UInt8, a = n ↔ a.toNat = n.toNat := fun n => UInt8.toNat_inj.symm
  simp [isCont_iff, maskF8_iff, UInt8.lt_iff_toNat_lt, eq]
  omega

theorem isValidArray_one {a : UInt8} {s : Nat → UInt8} (h0 : s 0 = a)
    (ha : sequenceLength a = 1) : isValidArray s 1 = true := by
  have e := seqLen_one.1 ha
  simp [isValidArray, expectationMasks, expectationValues, h0, mask80_iff, e]

/-- Strict decoding succeeds exactly on strings that start with an encoding. -/
theorem decodeAndLength_ok_iff (s : Bytes) (cp n : Nat) :
    decodeAndLength s = .ok (cp, n) ↔ ∃ p rest, Enc cp p ∧ s = p ++ rest ∧ n = p.length := by
  constructor
  · intro h
    obtain _ | ⟨a, rest⟩ := s
    · simp [decodeAndLength] at h
    simp only [decodeAndLength] at h
    split at h
    · simp at h
    split at h
    · simp at h
    rename_i h0 hlen
    have hle := seqLen_le a
    have h4 : sequenceLength a = 1 ∨ sequenceLength a = 2 ∨ sequenceLength a = 3 ∨ sequenceLength a = 4 := by
      omega
    split at h
    · simp at h
    rename_i hv
    simp only [Bool.not_eq_true, Bool.not_eq_false'] at hv
    simp only [Except.ok.injEq, Prod.mk.injEq] at h
    obtain ⟨h, rfl⟩ := h
    rcases h4 with h1 | h1 | h1 | h1 <;> rw [h1] at hlen hv h ⊢
    · refine ⟨[a], rest, ?_, rfl, rfl⟩
      have := Enc.one a (seqLen_one.1 h1)
      simpa [← h, decodeUnchecked, padded] using this
    · obtain _ | ⟨b, rest⟩ := rest
      · simp at hlen
      rw [isValidArray_two (a := a) (b := b) rfl rfl h1] at hv
      refine ⟨[a, b], rest, ?_, rfl, rfl⟩
      have := Enc.two a b (seqLen_two.1 h1) (isValidSecond_cont hv)
      simpa [← h, decodeUnchecked_two, padded] using this
    · obtain _ | ⟨b, _ | ⟨c, rest⟩⟩ := rest
      · simp at hlen
      · simp at hlen
      rw [isValidArray_three (a := a) (b := b) (c := c) rfl rfl rfl h1] at hv
      refine ⟨[a, b, c], rest, ?_, rfl, rfl⟩
      have := Enc.three a b c (seqLen_three.1 h1) hv.1 hv.2
      simpa [← h, decodeUnchecked_three, padded] using this
    · obtain _ | ⟨b, _ | ⟨c, _ | ⟨d, rest⟩⟩⟩ := rest
      · simp at hlen
      · simp at hlen
      · simp at hlen
      rw [isValidArray_four (a := a) (b := b) (c := c) (d := d) rfl rfl rfl rfl h1] at hv
      refine ⟨[a, b, c, d], rest, ?_, rfl, rfl⟩
      have := Enc.four a b c d (seqLen_four.1 h1) hv.1 hv.2.1 hv.2.2
      simpa [← h, decodeUnchecked_four, padded] using this
  · rintro ⟨p, rest, h, rfl, rfl⟩
    cases h with
    | one a h =>
      have h1 := seqLen_one.2 h
      have hv := isValidArray_one (s := padded (a :: rest)) rfl h1
      simp [decodeAndLength, h1, hv]
      simp [decodeUnchecked, padded]
    | two a b ha hb =>
      have h1 := seqLen_two.2 ha
      have hv := (isValidArray_two (s := padded (a :: b :: rest)) rfl rfl h1).2
        ((isValidSecond_two h1).2 hb)
      simp [decodeAndLength, h1, hv, decodeUnchecked_two]
      simp [padded]
    | three a b c ha hb hc =>
      have h1 := seqLen_three.2 ha
      have hv := (isValidArray_three (s := padded (a :: b :: c :: rest)) rfl rfl rfl h1).2 ⟨hb, hc⟩
      simp [decodeAndLength, h1, hv, decodeUnchecked_three]
      simp [padded]
    | four a b c d ha hb hc hd =>
      have h1 := seqLen_four.2 ha
      have hv := (isValidArray_four (s := padded (a :: b :: c :: d :: rest)) rfl rfl rfl rfl h1).2
        ⟨hb, hc, hd⟩
      simp [decodeAndLength, h1, hv, decodeUnchecked_four]
      simp [padded]

end Utf8
end Ulight
