import Verif.Hl.Chars

/-!
# Whole characters
-/

namespace Ulight

open Spec Utf8

theorem isUtf8_nil : IsUtf8 [] := ⟨[], by simp, rfl⟩

/-- All but the first byte of a character are not ASCII. -/
theorem enc_tail {c : Nat} {p : Bytes} (h : Enc c p) {k : Nat} {b : UInt8} (hk : 0 < k)
    (hb : p[k]? = some b) : 0x80 ≤ b.toNat ∧ b.toNat < 0xC0 := by
  cases h with
  | one a h => 
    obtain ⟨k, rfl⟩ : ∃ j, k = j + 1 := ⟨k - 1, by omega⟩
    simp at hb
  | two a b' ha hb' =>
    match k with
    | 1 => simp at hb; subst hb; exact hb'
    | k + 2 => simp at hb
  | three a b' c ha hb' hc =>
    match k with
    | 1 => simp at hb; subst hb; exact isValidSecond_cont hb'
    | 2 => simp at hb; subst hb; exact hc
    | k + 3 => simp at hb
  | four a b' c d ha hb' hc hd =>
    match k with
    | 1 => simp at hb; subst hb; exact isValidSecond_cont hb'
    | 2 => simp at hb; subst hb; exact hc
    | 3 => simp at hb; subst hb; exact hd
    | k + 4 => simp at hb

/-- The first byte of a character is not a continuation byte. -/
theorem enc_head {c : Nat} {a : UInt8} {p : Bytes} (h : Enc c (a :: p)) :
    a.toNat < 0x80 ∨ 0xC0 ≤ a.toNat := by
  cases h <;> omega

theorem isUtf8_head {s : Bytes} {a : UInt8} (h : IsUtf8 (a :: s)) : a.toNat < 0x80 ∨ 0xC0 ≤ a.toNat := by
  obtain ⟨c, p, rest, he, hs, _⟩ := isUtf8_decode h (by simp)
  obtain _ | ⟨b, p⟩ := p
  · exact absurd rfl (enc_ne_nil he)
  simp at hs
  exact hs.1 ▸ enc_head he

/-- A byte outside of ASCII is not a character. -/
theorem not_isUtf8_one {a : UInt8} (h : 0x80 ≤ a.toNat) : ¬ IsUtf8 [a] := by
  intro hu
  obtain ⟨c, p, rest, he, hs, _⟩ := isUtf8_decode hu (by simp)
  cases he <;> simp at hs
  rename_i x h'
  obtain ⟨rfl, _⟩ := hs
  omega

/-- Every byte that is not a continuation byte begins a character. -/
theorem isUtf8_boundary {s : Bytes} (h : IsUtf8 s) {k : Nat} {b : UInt8} (hb : s[k]? = some b)
    (ha : b.toNat < 0x80 ∨ 0xC0 ≤ b.toNat) : IsUtf8 (s.take k) ∧ IsUtf8 (s.drop k) := by
  obtain ⟨cs, hcs, rfl⟩ := h
  induction cs generalizing k with
  | nil => simp [utf8All] at hb
  | cons c cs ih =>
    have he := enc_utf8 (hcs c (by simp))
    have hu : utf8All (c :: cs) = utf8 c ++ utf8All cs := rfl
    rw [hu] at hb ⊢
    by_cases hk : k < (utf8 c).length
    · rw [List.getElem?_append_left hk] at hb
      by_cases h0 : k = 0
      · subst h0
        exact ⟨isUtf8_nil, c :: cs, hcs, by simp [hu]⟩
      · have := enc_tail he (by omega) hb
        omega
    · rw [List.getElem?_append_right (by omega)] at hb
      have := ih (fun x hx => hcs x (by simp [hx])) hb
      rw [List.take_append, List.drop_append, List.take_of_length_le (by omega),
        List.drop_of_length_le (l := utf8 c) (by omega), List.nil_append]
      exact ⟨(isUtf8_cons_iff he).2 this.1, this.2⟩

theorem isUtf8_append {s t : Bytes} (hs : IsUtf8 s) (ht : IsUtf8 t) : IsUtf8 (s ++ t) := by
  obtain ⟨cs, h1, rfl⟩ := hs
  obtain ⟨ds, h2, rfl⟩ := ht
  exact ⟨cs ++ ds, by simpa [or_imp, forall_and] using ⟨h1, h2⟩, by simp [utf8All]⟩

theorem isUtf8_ascii {s : Bytes} (h : ∀ c ∈ s, c.toNat < 0x80) : IsUtf8 s := by
  induction s with
  | nil => exact isUtf8_nil
  | cons a s ih =>
    exact (isUtf8_cons_iff (.one a (h a (by simp)))).2 (ih fun c hc => h c (by simp [hc]))

theorem Spec.Whole.of_drop {s : Bytes} {n : Nat} (h : IsUtf8 s → IsUtf8 (s.drop n)) :
    Whole s n := by
  intro hs
  have hd := h hs
  cases hc : s.drop n with
  | nil =>
    have : s.take n = s := List.take_of_length_le (by
      have := congrArg List.length hc; simp at this; omega)
    rw [this]
    exact ⟨hs, isUtf8_nil⟩
  | cons a t =>
    rw [hc] at hd
    have := isUtf8_boundary hs (k := n) (b := a) (by rw [← List.head?_drop, hc]; rfl) (isUtf8_head hd)
    rw [hc] at this
    exact this

theorem Spec.Whole.zero (s : Bytes) : Whole s 0 := fun h => ⟨isUtf8_nil, h⟩

theorem Spec.Whole.all {s : Bytes} {n : Nat} (h : s.length ≤ n) : Whole s n := by
  intro hs
  rw [List.take_of_length_le h, List.drop_of_length_le h]
  exact ⟨hs, isUtf8_nil⟩

/-- An ASCII character follows. -/
theorem Spec.Whole.at {s : Bytes} {n : Nat} {c : UInt8} (h : s[n]? = some c) (hc : c.toNat < 0x80) : Whole s n :=
  fun hs => isUtf8_boundary hs h (Or.inl hc)

/-- An ASCII character precedes. -/
theorem Spec.Whole.after {s : Bytes} {n : Nat} {c : UInt8} (h : s[n]? = some c) (hc : c.toNat < 0x80) :
    Whole s (n + 1) := by
  have hn := (List.getElem?_eq_some_iff.1 h).1
  refine .of_drop fun hs => ?_
  have := (isUtf8_boundary hs h (Or.inl hc)).2
  rw [List.drop_eq_getElem_cons hn, (List.getElem?_eq_some_iff.1 h).2] at this
  exact (isUtf8_cons_iff (p := [c]) (.one c hc)).1 this

theorem Spec.Whole.ascii {s : Bytes} {n : Nat} (h : ∀ c ∈ s.take n, c.toNat < 0x80) : Whole s n := by
  by_cases hn : n < s.length
  · cases n with
    | zero => exact .zero s
    | succ n =>
      refine Whole.after (List.getElem?_eq_getElem (by omega)) (h _ ?_)
      rw [List.mem_take_iff_getElem]
      exact ⟨n, by omega, rfl⟩
  · exact .all (by omega)

theorem Spec.Whole.text {s w : Bytes} {n : Nat} (h : s.take n = w) (hw : ∀ c ∈ w, c.toNat < 0x80) : Whole s n :=
  .ascii (h ▸ hw)

theorem Spec.Whole.add {s : Bytes} {n m : Nat} (h : Whole s n) (h' : Whole (s.drop n) m) : Whole s (n + m) := by
  intro hs
  have h1 := h hs
  have h2 := h' h1.2
  rw [List.take_add, ← List.drop_drop]
  exact ⟨isUtf8_append h1.1 h2.1, h2.2⟩

theorem Spec.Whole.char {c : Nat} {p rest : Bytes} (h : FirstChar c p rest) : Whole (p ++ rest) p.length := by
  refine .of_drop fun hs => ?_
  rw [List.drop_left]
  have hne : p ≠ [] := by
    rcases h with ⟨h, rfl⟩ | ⟨_, h, _⟩
    · exact enc_ne_nil (enc_utf8 h)
    · exact h
  obtain ⟨c', p', rest', he, hs', _⟩ := isUtf8_decode hs (by simp [hne])
  have h' : FirstChar c' p' rest' := Or.inl ⟨he.scalar.1, he.scalar.2.symm⟩
  obtain ⟨rfl, rfl, rfl⟩ := firstChar_unique h h' hs'
  exact (isUtf8_cons_iff he).1 hs

theorem Spec.Whole.chars {s : Bytes} {a b : List (Nat × Bytes)} (h : Chars s (a ++ b)) :
    Whole s (a.flatMap Prod.snd).length := by
  induction a generalizing s with
  | nil => exact .zero s
  | cons x a ih =>
    rw [List.cons_append] at h
    cases h with
    | cons hc h =>
      have h1 := ih h
      rw [List.flatMap_cons, List.length_append]
      refine (Whole.char hc).add ?_
      rw [List.drop_left]
      exact h1

theorem Spec.Whole.longestChars {P : Nat → Prop} {s : Bytes} {n : Nat} (h : LongestChars P s n) : Whole s n := by
  obtain ⟨a, b, h, rfl, _⟩ := h
  exact .chars h

theorem Spec.Whole.identifier {S C : Nat → Prop} {s : Bytes} {n : Nat} (h : Identifier S C s n) : Whole s n := by
  obtain ⟨c, p, rest, rfl, hc, _, hn, hl⟩ := h
  obtain ⟨m, rfl⟩ : ∃ m, n = p.length + m := ⟨n - p.length, by omega⟩
  refine (Whole.char hc).add ?_
  rw [List.drop_left]
  rw [Nat.add_sub_cancel_left] at hl
  exact .longestChars hl

/-- Everything up to an ASCII delimiter. -/
theorem Spec.Whole.upTo {a : UInt8} {w s : Bytes} {n : Nat} (ha : a.toNat < 0x80) (h : UpTo (a :: w) s n) :
    Whole s n := by
  rcases h.2 with h | ⟨u, v, rfl, rfl⟩
  · exact .all (by omega)
  · exact .at (c := a) (by simp) ha

/-- Up to a byte of a kind that is ASCII. -/
theorem Spec.Whole.longest {P : UInt8 → Prop} (hP : ∀ c, ¬ P c → c.toNat < 0x80) {s : Bytes} {n : Nat}
    (h : Longest P s n) : Whole s n := by
  cases hc : s[n]? with
  | none => exact .all (by simpa using hc)
  | some c => exact .at hc (hP c (h.2 c hc))

theorem InLine.ascii (c : UInt8) (h : ¬ InLine c) : c.toNat < 0x80 := by
  unfold InLine at h
  by_cases h1 : c = 0x0A
  · subst h1; decide
  by_cases h2 : c = 0x0D
  · subst h2; decide
  exact absurd ⟨h1, h2⟩ h

/-- The length of the first character of well-formed text. -/
theorem Spec.Whole.sequence {a : UInt8} {t : Bytes} : Whole (a :: t) (sequenceLength a) := by
  intro hs
  obtain ⟨c, p, rest, he, hs', _⟩ := isUtf8_decode hs (by simp)
  obtain _ | ⟨b, p⟩ := p
  · exact absurd rfl (enc_ne_nil he)
  simp at hs'
  obtain ⟨rfl, rfl⟩ := hs'
  rw [enc_seqLen he]
  have : Whole ((a :: p) ++ rest) (a :: p).length := .char (Or.inl ⟨he.scalar.1, he.scalar.2.symm⟩)
  exact this hs

theorem isUtf8_sequence {a : UInt8} {t : Bytes} (hs : IsUtf8 (a :: t)) :
    ∃ c p rest, a :: t = p ++ rest ∧ FirstChar c p rest ∧ sequenceLength a = p.length ∧
      0 < p.length ∧ p.length ≤ (a :: t).length := by
  obtain ⟨c, p, rest, he, hs', _⟩ := isUtf8_decode hs (by simp)
  obtain _ | ⟨b, p⟩ := p
  · exact absurd rfl (enc_ne_nil he)
  refine ⟨c, b :: p, rest, hs', Or.inl ⟨he.scalar.1, he.scalar.2.symm⟩, ?_, by simp, ?_⟩
  · simp at hs'
    rw [hs'.1, enc_seqLen he]
    rfl
  · rw [hs']; simp

/-! ## Numbers -/

/-- Numbers of ASCII characters only. -/
structure Spec.Numerals.Ascii (N : Numerals) : Prop where
  decor : ∀ w ∈ N.decor, ∀ c ∈ w, c.toNat < 0x80
  exps : ∀ w ∈ N.exps, ∀ c ∈ w, c.toNat < 0x80
  suffix : ∀ w, N.suffix w → ∀ c ∈ w, c.toNat < 0x80
  sep : N.sep.toNat < 0x80

theorem digit_ascii {N : Numerals} {c : UInt8} (h : N.Digit c) : c.toNat < 0x80 := by
  obtain ⟨v, h, _⟩ := h
  unfold digitVal at h
  repeat' split at h
  all_goals first | omega | (simp at h)

theorem digits_ascii {N : Numerals} (hN : N.Ascii) {c : UInt8} (h : N.Digits c) : c.toNat < 0x80 := by
  rcases h with h | ⟨_, rfl⟩
  · exact digit_ascii h
  · exact hN.sep

theorem Spec.Numerals.Parts.ascii {N : Numerals} (hN : N.Ascii) {p : NumberParts} (h : N.Parts p) :
    ∀ c ∈ p.text, c.toNat < 0x80 := by
  intro c hc
  have hd : ∀ c ∈ p.sign ++ p.pre, c.toNat < 0x80 := by
    rcases h.decor with h | h
    · simp [h]
    · exact hN.decor _ h
  have hp : ∀ c ∈ p.point, c.toNat < 0x80 := by rcases h.point with h | h <;> simp [h]
  have he : ∀ c ∈ p.expSep, c.toNat < 0x80 := by
    rcases h.expSep with h | h
    · simp [h]
    · exact hN.exps _ h
  have hs : ∀ c ∈ p.suffix, c.toNat < 0x80 := by
    rcases h.suffix with h | h
    · simp [h]
    · exact hN.suffix _ h
  simp only [NumberParts.text, List.mem_append] at hc
  simp only [List.mem_append] at hd
  have h1 := fun hc => digits_ascii hN (h.integer c hc)
  have h2 := fun hc => digits_ascii hN (h.fraction c hc)
  have h3 := fun hc => h.expDigits c hc
  simp only [DecDigit] at h3
  have := hd c
  have := hp c
  have := he c
  have := hs c
  grind

theorem Spec.Whole.number {N : Numerals} (hN : N.Ascii) {split : Bool} {s : Bytes} {n : Nat} {ty : HT}
    (h : NumberTok N split s n ty) : Whole s n := by
  cases h with
  | digits h => exact .ascii fun c hc => digits_ascii hN (h c hc)
  | point h => exact .text h (by simp)
  | exponent h => exact .ascii (hN.exps _ h)
  | separator _ h => exact .text h (by simpa using hN.sep)
  | decor h => exact .ascii (hN.decor _ h)
  | suffix h => exact .ascii (hN.suffix _ h)
  | error h hp => exact .text h (hp.ascii hN)

/-! ## Whole highlightings -/

/-- The rules require whole characters. -/
structure Spec.Rules.Whole (R : Rules) : Prop where
  tok : ∀ s n ty, R.tok s n ty → n ≤ s.length → Spec.Whole s n
  gap : ∀ s n, R.gap s n → n ≤ s.length → Spec.Whole s n

theorem Spec.Tiles.utf8 {R : Rules} (hR : R.Whole) {src : Bytes} {p : Nat} {ts : List Token}
    (h : Tiles R src p ts) (hs : IsUtf8 src) :
    IsUtf8 (src.take p) ∧ IsUtf8 (src.drop p) ∧ ∀ t ∈ ts, IsUtf8 (src.take t.beg) ∧
      IsUtf8 ((src.drop t.beg).take t.len) ∧ IsUtf8 (src.drop (t.beg + t.len)) := by
  induction h with
  | nil => exact ⟨isUtf8_nil, hs, by simp⟩
  | gap n _ le rule ih =>
    obtain ⟨h1, h2, h3⟩ := ih
    have := hR.gap _ _ rule (by simp; omega) h2
    rw [List.take_add, ← List.drop_drop]
    exact ⟨isUtf8_append h1 this.1, this.2, h3⟩
  | @tok p ts n ty _ pos le _ rule ih =>
    obtain ⟨h1, h2, h3⟩ := ih
    have := hR.tok _ _ _ rule (by simp; omega) h2
    rw [List.take_add, ← List.drop_drop]
    refine ⟨isUtf8_append h1 this.1, this.2, ?_⟩
    intro t ht
    simp at ht
    rcases ht with ht | rfl
    · exact h3 t ht
    · rw [← List.drop_drop]
      exact ⟨h1, this⟩

/-- The remaining text of a good state is well-formed. -/
theorem Good.utf8 {σ : Type} {R : Rules} (hR : R.Whole) {env : HEnv} {s : HS σ} (g : Good R env s)
    (hs : IsUtf8 env.src) : IsUtf8 s.rem := by
  rw [g.rem]
  exact (g.tiles.utf8 hR hs).2.1

end Ulight
