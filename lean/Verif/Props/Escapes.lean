import Verif.Spec.Escapes
import Verif.Props.Parse

/-!
# C28: escape sequences
-/

namespace Ulight

open Spec Ascii

theorem isOctalDigit_iff (c : UInt8) : isOctalDigit c = true ↔ Octal c := by
  simp [isOctalDigit, Octal, UInt8.le_iff_toNat_le]

theorem isHexDigit_iff (c : UInt8) : isHexDigit c = true ↔ Hex c := by
  simp [isHexDigit, isDigit, Hex, UInt8.le_iff_toNat_le, or_assoc]

/-- The longest run of at most `m` bytes with the property. -/
theorem run_spec (p : UInt8 → Bool) (m : Nat) (s : Bytes) :
    let n := length_if (s.take m) p
    n ≤ s.length ∧ n ≤ m ∧ (∀ c ∈ s.take n, p c = true) ∧
    ∀ t u, s = t ++ u → t.length ≤ m → (∀ c ∈ t, p c = true) → t.length ≤ n := by
  intro n
  have hn : n = ((s.take m).takeWhile p).length := length_if_eq _ _
  have hle : n ≤ (s.take m).length := by rw [hn]; exact (List.takeWhile_prefix p).length_le
  rw [List.length_take] at hle
  have hle : n ≤ m ∧ n ≤ s.length := by omega
  refine ⟨hle.2, hle.1, ?_, ?_⟩
  · have := take_length_takeWhile p (s.take m)
    rw [← hn, List.take_take, Nat.min_eq_left hle.1] at this
    rw [this]
    intro c hc
    exact (List.all_eq_true.1 (List.all_takeWhile (l := s.take m) (p := p))) c hc
  · rintro t u rfl hm hp
    rw [hn, List.take_append, List.take_of_length_le hm, List.takeWhile_append_of_pos hp]
    simp

theorem run_all_spec (p : UInt8 → Bool) (s : Bytes) :
    let n := length_if s p
    n ≤ s.length ∧ (∀ c ∈ s.take n, p c = true) ∧
    ∀ t u, s = t ++ u → (∀ c ∈ t, p c = true) → t.length ≤ n := by
  have := run_spec p s.length s
  simp only [List.take_length] at this
  refine ⟨this.1, this.2.2.1, fun t u e h => this.2.2.2 t u e (by rw [e]; simp) h⟩

/-- The result never extends past the string. -/
theorem C28_bounds (kind : EscapeKind) (s : Bytes) :
    (matchCommonEscape kind s).length ≤ s.length := by
  have hb : ∀ p, (matchBracedEscape s p).length ≤ s.length := by
    intro p
    unfold matchBracedEscape
    by_cases h : startsWith s b!"{" = true
    · have hl := startsWith_length h
      simp at hl
      have := (C16_lengths s p p c!"}" 1 hl).2.2.1
      have hle : ((s.drop 1).takeWhile (· != c!"}")).length ≤ (s.drop 1).length :=
        (List.takeWhile_prefix _).length_le
      rw [List.length_drop] at hle
      simp only [h]
      simp
      split <;> omega
    · simp [h]
  cases kind <;> simp only [matchCommonEscape, matchCommonEscape.fixed]
  case octal_1_to_2 => exact (run_spec isOctalDigit 2 s).1
  case octal_1_to_3 => exact (run_spec isOctalDigit 3 s).1
  case octal_3 => exact (run_spec isOctalDigit 3 s).1
  case octal_braced => exact hb _
  case hex_1_to_2 => exact (run_spec isHexDigit 2 s).1
  case hex_1_to_inf => exact (run_all_spec isHexDigit s).1
  case hex_2 => split <;> simp <;> omega
  case hex_4 => split <;> simp <;> omega
  case hex_8 => split <;> simp <;> omega
  case nonempty_braced =>
    split
    · simp
    · have := findLoop_spec (· == c!"}") true 1 (s.drop 1)
      split
      · simp
      · rename_i i hi
        rw [hi] at this
        obtain ⟨h1, ⟨c, hc, _⟩, _⟩ := this
        have := (List.getElem?_eq_some_iff.1 hc).1
        simp at this ⊢
        omega
  case hex_braced => exact hb _
  case lf_cr_crlf =>
    split
    · next h => simpa using startsWith_length h
    · split
      · next h =>
        simp only [Bool.or_eq_true] at h
        rcases h with h | h <;> simpa using startsWith_length h
      · simp

theorem fixed_spec (s : Bytes) (m : Nat) (hm : m ≠ 0) :
    let r := matchCommonEscape.fixed s m
    (r.erroneous = false → (s.take r.length).length = m ∧ ∀ c ∈ s.take r.length, Hex c) ∧
    (∀ t u, s = t ++ u → (t.length = m ∧ ∀ c ∈ t, Hex c) → r.erroneous = false ∧ t.length ≤ r.length) := by
  intro r
  constructor
  · intro h
    simp only [r, matchCommonEscape.fixed] at h ⊢
    split at h
    · simp at h
    · rename_i hl
      rw [if_neg hl]
      simp at hl h
      have hm' : min m s.length = m := by omega
      simp only [List.length_take, hm']
      refine ⟨trivial, fun c hc => (isHexDigit_iff c).1 (h c hc)⟩
  · rintro t u rfl ⟨rfl, h⟩
    simp only [r, matchCommonEscape.fixed]
    simp
    exact fun c hc => (isHexDigit_iff c).2 (h c hc)

/-- For the kinds without braces, a result is not erroneous exactly when the string starts with a
complete escape of this kind, and then the result is the longest one. -/
theorem C28_unbraced (kind : EscapeKind) (hk : ¬ Braced kind) (s : Bytes) :
    let r := matchCommonEscape kind s
    (r.erroneous = false → IsEscape kind (s.take r.length)) ∧
    (∀ t u, s = t ++ u → IsEscape kind t → r.erroneous = false ∧ t.length ≤ r.length) := by
  have hr : ∀ p (P : UInt8 → Prop) m, (∀ c, p c = true ↔ P c) →
      let n := length_if (s.take m) p
      ((n == 0) = false → 1 ≤ (s.take n).length ∧ (s.take n).length ≤ m ∧ ∀ c ∈ s.take n, P c) ∧
      (∀ t u, s = t ++ u → (1 ≤ t.length ∧ t.length ≤ m ∧ ∀ c ∈ t, P c) →
        (n == 0) = false ∧ t.length ≤ n) := by
    intro p P m hp n
    obtain ⟨h1, h2, h3, h4⟩ := run_spec p m s
    refine ⟨fun h => ?_, fun t u e ⟨i1, i2, i3⟩ => ?_⟩
    · simp at h
      simp only [List.length_take]
      exact ⟨by omega, by omega, fun c hc => (hp c).1 (h3 c hc)⟩
    · have := h4 t u e i2 (fun c hc => (hp c).2 (i3 c hc))
      simp
      omega
  intro r
  cases kind
  case octal_1_to_2 => exact hr _ _ 2 isOctalDigit_iff
  case octal_1_to_3 => exact hr _ _ 3 isOctalDigit_iff
  case octal_3 =>
    obtain ⟨h1, h2, h3, h4⟩ := run_spec isOctalDigit 3 s
    refine ⟨fun h => ?_, ?_⟩
    · simp [r, matchCommonEscape] at h
      simp only [IsEscape, r, matchCommonEscape, List.length_take]
      exact ⟨by omega, fun c hc => (isOctalDigit_iff c).1 (h3 c hc)⟩
    · rintro t u e ⟨i1, i2⟩
      have := h4 t u e (by omega) (fun c hc => (isOctalDigit_iff c).2 (i2 c hc))
      simp [r, matchCommonEscape]
      omega
  case hex_1_to_2 => exact hr _ _ 2 isHexDigit_iff
  case hex_1_to_inf =>
    obtain ⟨h1, h3, h4⟩ := run_all_spec isHexDigit s
    refine ⟨fun h => ?_, ?_⟩
    · simp [r, matchCommonEscape] at h
      simp only [IsEscape, r, matchCommonEscape, List.length_take]
      exact ⟨by omega, fun c hc => (isHexDigit_iff c).1 (h3 c hc)⟩
    · rintro t u e ⟨i1, i2⟩
      have := h4 t u e (fun c hc => (isHexDigit_iff c).2 (i2 c hc))
      simp [r, matchCommonEscape]
      omega
  case hex_2 => exact fixed_spec s 2 (by decide)
  case hex_4 => exact fixed_spec s 4 (by decide)
  case hex_8 => exact fixed_spec s 8 (by decide)
  case lf_cr_crlf =>
    simp only [r, matchCommonEscape, startsWith, IsEscape]
    rcases s with _ | ⟨a, _ | ⟨b, s⟩⟩ <;> grind
  all_goals exact absurd (by simp [Braced]) hk

example : matchCommonEscape .hex_4 b!"12aF9" = ⟨4, false⟩ ∧
    matchCommonEscape .octal_1_to_3 b!"0178" = ⟨3, false⟩ ∧
    matchCommonEscape .hex_2 b!"1g" = ⟨2, true⟩ ∧
    matchCommonEscape .lf_cr_crlf b!"\r\n" = ⟨2, false⟩ := by decide +kernel

/-- The property fails for braced escapes: one whose closing brace is missing is not reported. -/
theorem C28_unclosed_brace_unreported :
    (matchCommonEscape .hex_braced b!"{12").erroneous = false ∧
    (matchCommonEscape .octal_braced b!"{12").erroneous = false ∧
    ∀ t u, b!"{12" = t ++ u → ¬ IsEscape .hex_braced t ∧ ¬ IsEscape .octal_braced t := by
  refine ⟨by decide +kernel, by decide +kernel, ?_⟩
  intro t u e
  have key : ∀ ds, t ≠ b!"{" ++ ds ++ b!"}" := by
    rintro ds rfl
    have : c!"}" ∈ b!"{12" := by rw [e]; simp
    revert this
    decide
  exact ⟨fun ⟨ds, h, _⟩ => key ds h, fun ⟨ds, h, _⟩ => key ds h⟩

/-- It also fails for `nonempty_braced`, which accepts empty braces. -/
theorem C28_empty_braces_accepted :
    matchCommonEscape .nonempty_braced b!"{}" = ⟨2, false⟩ ∧ ¬ IsEscape .nonempty_braced b!"{}" := by
  refine ⟨by decide +kernel, ?_⟩
  rintro ⟨ds, h, h1, h2⟩
  have := congrArg List.length h
  simp at this
  exact h1 this

theorem length_before_closed (a b : Bytes) (d : UInt8) (ha : d ∉ a) :
    length_before (c!"{" :: (a ++ d :: b)) d 1 = 1 + a.length := by
  rw [(C16_lengths _ (fun _ => true) (fun _ => true) d 1 (by simp)).2.2.1]
  simp only [List.drop_succ_cons, List.drop_zero]
  rw [List.takeWhile_append_of_pos]
  · simp
  · intro c hc
    simp
    rintro rfl
    exact ha hc

/-- Braced escapes that are closed (and, for `nonempty_braced`, not empty) are classified
correctly: the result ends at the first closing brace, and it is erroneous iff it is not an escape
of this kind. -/
theorem C28_braced_partial (kind : EscapeKind) (hk : Braced kind) (ds rest : Bytes)
    (hd : c!"}" ∉ ds) (he : kind = .nonempty_braced → ds ≠ []) :
    let r := matchCommonEscape kind (b!"{" ++ ds ++ b!"}" ++ rest)
    r.length = ds.length + 2 ∧
    (r.erroneous = false ↔ IsEscape kind (b!"{" ++ ds ++ b!"}")) := by
  intro r
  have hb : ∀ p (P : UInt8 → Prop), (∀ c, p c = true ↔ P c) →
      let q := matchBracedEscape (b!"{" ++ ds ++ b!"}" ++ rest) p
      q.length = ds.length + 2 ∧ (q.erroneous = false ↔ ds ≠ [] ∧ ∀ c ∈ ds, P c) := by
    intro p P hp
    have hs : b!"{" ++ ds ++ b!"}" ++ rest = c!"{" :: (ds ++ c!"}" :: rest) := by simp
    have hl := length_before_closed ds rest c!"}" hd
    simp only [hs]
    unfold matchBracedEscape
    simp only [hl]
    have h1 : startsWith (c!"{" :: (ds ++ c!"}" :: rest)) b!"{" = true := by simp [startsWith]
    have h2 : (c!"{" :: (ds ++ c!"}" :: rest))[1 + ds.length]? = some c!"}" := by
      rw [Nat.add_comm]
      simp
    simp only [h1, h2]
    constructor
    · simp
      split <;> omega
    · cases ds <;> simp [← hp]
  have hinj : ∀ ds', b!"{" ++ ds ++ b!"}" = b!"{" ++ ds' ++ b!"}" → ds' = ds := by
    intro ds' h
    simp at h
    exact h.symm
  rcases hk with rfl | rfl | rfl
  · obtain ⟨h1, h2⟩ := hb isOctalDigit Octal isOctalDigit_iff
    exact ⟨h1, h2.trans ⟨fun h => ⟨ds, rfl, h.1, h.2⟩, fun ⟨ds', h, h'⟩ => by rw [hinj ds' h] at h'; exact h'⟩⟩
  · obtain ⟨h1, h2⟩ := hb isHexDigit Hex isHexDigit_iff
    exact ⟨h1, h2.trans ⟨fun h => ⟨ds, rfl, h.1, h.2⟩, fun ⟨ds', h, h'⟩ => by rw [hinj ds' h] at h'; exact h'⟩⟩
  · have hf : findLoop (· == c!"}") true 1 ((b!"{" ++ ds ++ b!"}" ++ rest).drop 1) = some (1 + ds.length) := by
      have := findLoop_eq (· == c!"}") true 1 (1 + (ds ++ c!"}" :: rest).length) (ds ++ c!"}" :: rest) rfl
      have e : (b!"{" ++ ds ++ b!"}" ++ rest).drop 1 = ds ++ c!"}" :: rest := by simp
      rw [e]
      have h2 := findLoop_spec (· == c!"}") true 1 (ds ++ c!"}" :: rest)
      cases hq : findLoop (· == c!"}") true 1 (ds ++ c!"}" :: rest) with
      | none =>
        rw [hq] at h2
        have := h2 c!"}" (by simp)
        simp at this
      | some k =>
        rw [hq] at this
        rw [List.takeWhile_append_of_pos (by
          intro c hc
          simp
          rintro rfl
          exact hd hc)] at this
        simp at this
        rw [this]
    have hr : r = ⟨1 + ds.length + 1, false⟩ := by
      simp only [r, matchCommonEscape, hf]
      simp [startsWith]
    rw [hr]
    exact ⟨by simp; omega, by simp [IsEscape]; exact ⟨he rfl, hd⟩⟩

example : matchCommonEscape .hex_braced b!"{1F}x" = ⟨4, false⟩ ∧
    matchCommonEscape .hex_braced b!"{1x}x" = ⟨4, true⟩ := by decide +kernel

end Ulight
