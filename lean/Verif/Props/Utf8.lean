import Verif.Text.Utf8Lemmas

/-!
# Properties of UTF-8 handling: C12, C13, C14, C15
-/

namespace Ulight.Utf8
open Spec

/-! ## C13: encoding and decoding -/

theorem encode8_eq {c : Nat} (h : IsScalar c) : encode8 c = utf8 c := by
  unfold IsScalar at h
  have a6 : ∀ n : Nat, n &&& 0x3f = n % 64 := fun n => Nat.and_two_pow_sub_one_eq_mod n 6
  have o : ∀ n k : Nat, n < 2 ^ k → ∀ m, n ||| (m <<< k) = m * 2 ^ k + n := by
    intro n k hn m; rw [Nat.or_comm, or_add hn]
  have o80 : ∀ n : Nat, n < 64 → n ||| 0x80 = 0x80 + n := fun n hn => by
    have := o n 7 (by omega) 1
    rw [show 1 <<< 7 = 0x80 from rfl] at this; rw [this]
  have oc0 : ∀ n : Nat, n < 32 → n ||| 0xc0 = 0xC0 + n := fun n hn => by
    have := o n 6 (by omega) 3
    rw [show 3 <<< 6 = 0xC0 from rfl] at this; rw [this]
  have oe0 : ∀ n : Nat, n < 16 → n ||| 0xe0 = 0xE0 + n := fun n hn => by
    have := o n 5 (by omega) 7
    rw [show 7 <<< 5 = 0xE0 from rfl] at this; rw [this]
  have of0 : ∀ n : Nat, n < 8 → n ||| 0xf0 = 0xF0 + n := fun n hn => by
    have := o n 4 (by omega) 15
    rw [show 15 <<< 4 = 0xF0 from rfl] at this; rw [this]
  unfold encode8 utf8
  simp only [Nat.shiftRight_eq_div_pow, a6]
  split
  · rfl
  split
  · rw [oc0 _ (by omega), o80 _ (by omega)]
  split
  · rw [oe0 _ (by omega), o80 _ (by omega), o80 _ (by omega)]
  · rw [of0 _ (by omega), o80 _ (by omega), o80 _ (by omega), o80 _ (by omega)]

/-- Encoding any scalar value gives the standard encoding. -/
theorem C13_encode (c : Nat) (h : IsScalar c) : encode8 c = utf8 c := encode8_eq h

/-- Decoding what was encoded, whatever follows it, gives the scalar value and the length back. -/
theorem C13_decode_encode (c : Nat) (h : IsScalar c) (rest : Bytes) :
    decodeAndLength (encode8 c ++ rest) = .ok (c, (encode8 c).length) ∧
    decodeOrReplacement (encode8 c ++ rest) = (c, (encode8 c).length) := by
  rw [encode8_eq h]
  exact ⟨(decodeAndLength_ok_iff _ _ _).2 ⟨_, rest, enc_utf8 h, rfl, rfl⟩,
    decodeOrReplacement_enc (enc_utf8 h) rest⟩

/-- Whatever strict decoding accepts is a scalar value whose encoding is exactly the bytes
consumed. -/
theorem C13_encode_decode (s : Bytes) (c n : Nat) (h : decodeAndLength s = .ok (c, n)) :
    IsScalar c ∧ encode8 c = s.take n ∧ n ≤ s.length := by
  obtain ⟨p, rest, he, rfl, rfl⟩ := (decodeAndLength_ok_iff _ _ _).1 h
  obtain ⟨hs, rfl⟩ := he.scalar
  rw [encode8_eq hs]
  simp [hs]

example : encode8 0x20AC = b!"€" ∧ IsScalar 0x20AC := by decide +kernel
example : decodeAndLength (b!"€uro") = .ok (0x20AC, 3) := by rfl

/-! ## C12: validation -/

theorem isUtf8_cons_iff {c : Nat} {p rest : Bytes} (h : Enc c p) :
    IsUtf8 (p ++ rest) ↔ IsUtf8 rest := by
  constructor
  · rintro ⟨cs, hcs, he⟩
    obtain _ | ⟨c', cs⟩ := cs
    · simp [utf8All, enc_ne_nil h] at he
    simp only [utf8All, List.flatMap_cons] at he
    have := enc_unique h (enc_utf8 (hcs c' (by simp))) he
    exact ⟨cs, fun x hx => hcs x (by simp [hx]), this.2.2⟩
  · rintro ⟨cs, hcs, rfl⟩
    obtain ⟨hs, rfl⟩ := h.scalar
    exact ⟨c :: cs, by simpa using ⟨hs, hcs⟩, rfl⟩

theorem isUtf8_decode {s : Bytes} (h : IsUtf8 s) (hne : s ≠ []) :
    ∃ c p rest, Enc c p ∧ s = p ++ rest ∧ decodeAndLength s = .ok (c, p.length) := by
  obtain ⟨cs, hcs, rfl⟩ := h
  obtain _ | ⟨c, cs⟩ := cs
  · simp [utf8All] at hne
  have he := enc_utf8 (hcs c (by simp))
  exact ⟨c, utf8 c, utf8All cs, he, rfl,
    (decodeAndLength_ok_iff _ _ _).2 ⟨_, _, he, rfl, rfl⟩⟩

theorem isValidLoop_spec (fuel : Nat) (s : Bytes) (h : s.length ≤ fuel) :
    ∃ r, isValidLoop fuel s = .ok r ∧ (r = none ↔ IsUtf8 s) := by
  induction fuel generalizing s with
  | zero =>
    obtain rfl := List.length_eq_zero_iff.1 (Nat.le_zero.1 h)
    exact ⟨none, rfl, by simpa using ⟨[], by simp, rfl⟩⟩
  | succ fuel ih =>
    obtain _ | ⟨a, t⟩ := s
    · exact ⟨none, rfl, by simpa using ⟨[], by simp, rfl⟩⟩
    simp only [isValidLoop]
    split
    · rename_i e he
      refine ⟨some e, rfl, by simp, fun hu => ?_⟩
      obtain ⟨c, p, rest, _, _, hd⟩ := isUtf8_decode hu (by simp)
      rw [he] at hd; simp at hd
    · rename_i cp n he
      obtain ⟨p, rest, hp, hs, rfl⟩ := (decodeAndLength_ok_iff _ _ _).1 he
      have hl := enc_length hp
      rw [hs, List.drop_left]
      obtain ⟨r, hr, hi⟩ := ih rest (by have := congrArg List.length hs; simp at this h; omega)
      exact ⟨r, hr, by rw [hi, isUtf8_cons_iff hp]⟩

/-- Validation terminates on every byte string, and succeeds exactly on well-formed UTF-8. -/
theorem C12_is_valid_iff (s : Bytes) :
    ∃ r, isValid s = .ok r ∧ (r = none ↔ IsUtf8 s) := isValidLoop_spec _ s (Nat.le_refl _)

example : IsUtf8 (b!"aé€😀") := ⟨[0x61, 0xE9, 0x20AC, 0x1F600], by decide, by decide +kernel⟩
/-- A surrogate, an overlong form, a value above U+10FFFF and a truncated sequence are rejected. -/
example : isValid [0xED, 0xA0, 0x80] = .ok (some .illegalBits) ∧ isValid [0xC0, 0x80] = .ok (some .illegalBits)
    ∧ isValid [0xF4, 0x90, 0x80, 0x80] = .ok (some .illegalBits)
    ∧ isValid [0x61, 0xE2, 0x82] = .ok (some .missingUnits) := by
  refine ⟨?_, ?_, ?_, ?_⟩ <;> rfl

/-- Iterating over the code points of well-formed text yields exactly the encoded scalar values. -/
theorem C13_code_point_view (cs : List Nat) (h : ∀ c ∈ cs, IsScalar c) :
    codePointView (utf8All cs).length (utf8All cs) = .ok cs ∧
    codePointsUnchecked (utf8All cs) = .ok cs.length := by
  have gen : ∀ cs : List Nat, (∀ c ∈ cs, IsScalar c) → ∀ fuel, (utf8All cs).length ≤ fuel →
      codePointView fuel (utf8All cs) = .ok cs ∧
      ∀ r, codePointsLoop fuel r (utf8All cs) = .ok (r + cs.length) := by
    intro cs
    induction cs with
    | nil => intro _ fuel _; cases fuel <;> exact ⟨rfl, fun r => rfl⟩
    | cons c cs ih =>
      intro h fuel hf
      have he := enc_utf8 (h c (by simp))
      have hl := enc_length he
      simp only [utf8All, List.flatMap_cons] at hf ⊢
      change (utf8 c ++ utf8All cs).length ≤ fuel at hf
      change codePointView fuel (utf8 c ++ utf8All cs) = _ ∧
        ∀ r, codePointsLoop fuel r (utf8 c ++ utf8All cs) = _
      have hd : decodeAndLength (utf8 c ++ utf8All cs) = .ok (c, (utf8 c).length) :=
        (decodeAndLength_ok_iff _ _ _).2 ⟨_, _, he, rfl, rfl⟩
      obtain _ | fuel := fuel
      · simp only [List.length_append] at hf; omega
      simp only [List.length_append] at hf
      obtain ⟨ih1, ih2⟩ := ih (fun x hx => h x (by simp [hx])) fuel (by omega)
      generalize hu : utf8 c = u at he hl hf hd
      obtain _ | ⟨a, u⟩ := u
      · simp at hl
      have hs := enc_seqLen he
      have hsu : uncheckedSequenceLength a = u.length + 1 := by
        rw [sequenceLength_eq] at hs; rw [uncheckedSequenceLength_eq]; grind
      constructor
      · simp only [List.cons_append, codePointView]
        rw [← List.cons_append, hd]
        simp only [List.cons_append, iterNext, hs]
        rw [if_neg (by simp)]
        simp [ih1]
      · intro r
        simp only [List.cons_append, codePointsLoop, hsu]
        rw [if_pos (by simp)]
        simp [ih2]; omega
  have := gen cs h _ (Nat.le_refl _)
  exact ⟨this.1, by simpa [codePointsUnchecked] using this.2 0⟩

/-! ## C14: lenient decoding -/

theorem start_iff {q : Bytes} : IsUtf8Start q ↔ q ≠ [] ∧ ∃ c r, Enc c (q ++ r) := by
  unfold IsUtf8Start
  constructor
  · rintro ⟨h, c, hc, r, hr⟩
    exact ⟨h, c, r, hr ▸ enc_utf8 hc⟩
  · rintro ⟨h, c, r, he⟩
    exact ⟨h, c, he.scalar.1, r, he.scalar.2.symm⟩

theorem take_eq_of_prefix {q s : Bytes} {a : UInt8} {k : Nat} (h : q <+: s) (hk : k < q.length)
    (ha : s[k]? = some a) : q[k]? = some a := by
  obtain ⟨t, rfl⟩ := h
  rwa [List.getElem?_append_left hk] at ha

/-- Lenient decoding finds the first character: a scalar value, or U+FFFD for a maximal ill-formed
subpart. -/
theorem firstChar_decode {s : Bytes} (h : s ≠ []) :
    ∃ p rest, s = p ++ rest ∧ (decodeOrReplacement s).2 = p.length ∧
      FirstChar (decodeOrReplacement s).1 p rest := by
  have hd := dec_decodeOrReplacement s h
  have noEnc : ∀ r, Dec s r → r.1 = replacement → (∀ c p t, Enc c p → s = p ++ t → r.2 = p.length → False) →
      ∀ c, IsScalar c → ¬ utf8 c <+: s := by
    rintro r hr h1 h2 c hc ⟨t, ht⟩
    rw [← ht] at hr
    have := dec_of_enc (enc_utf8 hc) hr
    exact h2 c _ t (enc_utf8 hc) ht.symm (by rw [this])
  generalize hr : decodeOrReplacement s = r at hd
  have uniq : ∀ c p t, Enc c p → s = p ++ t → r.2 = p.length ∧ r.1 = c := by
    intro c p t he hs
    rw [hs] at hr
    rw [decodeOrReplacement_enc he] at hr
    simp [← hr]
  cases hd with
  | @enc c p rest he =>
    exact ⟨p, rest, rfl, rfl, .inl ⟨he.scalar.1, he.scalar.2.symm⟩⟩
  | lead a rest ha =>
    refine ⟨[a], rest, rfl, rfl, .inr ⟨rfl, by simp, ?_, .inl rfl, ?_⟩⟩
    · rintro c hc ⟨t, ht⟩
      have he := enc_utf8 hc
      generalize utf8 c = u at he ht
      obtain _ | ⟨x, u⟩ := u
      · exact enc_ne_nil he rfl
      have := enc_seqLen he
      simp at ht; grind
    · intro q ⟨t, hq⟩ hl hst
      obtain ⟨_, c, r, he⟩ := start_iff.1 hst
      obtain _ | ⟨x, q⟩ := q
      · simp at hl
      have := enc_seqLen he
      simp at hq; grind
  | second a rest ha hb =>
    refine ⟨[a], rest, rfl, rfl, .inr ⟨rfl, by simp, ?_, .inl rfl, ?_⟩⟩
    · rintro c hc ⟨t, ht⟩
      have he := enc_utf8 hc
      have := uniq _ _ _ he ht.symm
      generalize utf8 c = u at he ht this
      obtain _ | ⟨x, u⟩ := u
      · exact enc_ne_nil he rfl
      have h2 := enc_seqLen he
      simp at ht this; grind
    · intro q ⟨t, hq⟩ hl hst
      obtain ⟨_, c, r, he⟩ := start_iff.1 hst
      obtain _ | ⟨x, _ | ⟨y, q⟩⟩ := q
      · simp at hl
      · simp at hl
      have h2 := enc_second he
      simp only [List.cons_append, List.nil_append, List.cons.injEq] at hq
      have := hb y (by simp [← hq.2])
      grind
  | third a b rest ha hb hc =>
    refine ⟨[a, b], rest, rfl, rfl, .inr ⟨rfl, by simp, ?_, .inr ?_, ?_⟩⟩
    · rintro c hc ⟨t, ht⟩
      have he := enc_utf8 hc
      have := uniq _ _ _ he ht.symm
      generalize utf8 c = u at he ht this
      obtain _ | ⟨x, u⟩ := u
      · exact enc_ne_nil he rfl
      have h2 := enc_seqLen he
      simp at ht this; grind
    · refine start_iff.2 ⟨by simp, ?_⟩
      have := seqLen_le a
      by_cases h3 : sequenceLength a = 3
      · exact ⟨_, [0x80], Enc.three a b 0x80 (seqLen_three.1 h3) hb (by decide)⟩
      · exact ⟨_, [0x80, 0x80],
          Enc.four a b 0x80 0x80 (seqLen_four.1 (by omega)) hb (by decide) (by decide)⟩
    · intro q ⟨t, hq⟩ hl hst
      obtain ⟨_, c, r, he⟩ := start_iff.1 hst
      obtain _ | ⟨x, _ | ⟨y, _ | ⟨z, q⟩⟩⟩ := q
      · simp at hl
      · simp at hl
      · simp at hl
      have h2 := enc_third he
      simp only [List.cons_append, List.nil_append, List.cons.injEq] at hq
      exact hc z (by simp [← hq.2.2]) h2
  | fourth a b c rest ha hb hc hd =>
    refine ⟨[a, b, c], rest, rfl, rfl, .inr ⟨rfl, by simp, ?_, .inr ?_, ?_⟩⟩
    · rintro c hc ⟨t, ht⟩
      have he := enc_utf8 hc
      have := uniq _ _ _ he ht.symm
      generalize utf8 c = u at he ht this
      obtain _ | ⟨x, u⟩ := u
      · exact enc_ne_nil he rfl
      have h2 := enc_seqLen he
      simp at ht this; grind
    · exact start_iff.2 ⟨by simp, _, [0x80], Enc.four a b c 0x80 (seqLen_four.1 ha) hb hc (by decide)⟩
    · intro q ⟨t, hq⟩ hl hst
      obtain ⟨_, c, r, he⟩ := start_iff.1 hst
      obtain _ | ⟨x, _ | ⟨y, _ | ⟨z, _ | ⟨w, q⟩⟩⟩⟩ := q
      · simp at hl
      · simp at hl
      · simp at hl
      · simp at hl
      have h2 := enc_fourth he
      simp only [List.cons_append, List.nil_append, List.cons.injEq] at hq
      exact hd w (by simp [← hq.2.2.2]) h2

/-- Lenient decoding of any non-empty string consumes between one and four bytes that are there,
and yields the first character of the text in the sense of the specification: a scalar value if its
encoding is at the front, and otherwise U+FFFD for the maximal ill-formed subpart. -/
theorem C14_lenient (s : Bytes) (h : s ≠ []) (c n : Nat) (hd : decodeOrReplacement s = (c, n)) :
    1 ≤ n ∧ n ≤ 4 ∧ n ≤ s.length ∧ FirstChar c (s.take n) (s.drop n) := by
  obtain ⟨p, rest, hs, hn, hf⟩ := firstChar_decode h
  have := decodeOrReplacement_length h
  rw [hd] at this hn hf
  simp only at hn this hf
  refine ⟨this.1, this.2.1, this.2.2, ?_⟩
  rw [hn]
  subst hs
  simpa using hf

/-- On strings of at least four bytes the two overloads agree. -/
theorem C14_overloads_agree (a b c d : UInt8) (rest : Bytes) :
    decodeOrReplacement4 a b c d = decodeOrReplacement (a :: b :: c :: d :: rest) :=
  decodeOrReplacement4_eq a b c d rest

/-- Strict and lenient decoding agree wherever strict decoding succeeds. -/
theorem C14_agrees_with_strict (s : Bytes) (r : Nat × Nat) (h : decodeAndLength s = .ok r) :
    decodeOrReplacement s = r := by
  obtain ⟨p, rest, he, rfl, hn⟩ := (decodeAndLength_ok_iff s r.1 r.2).1 h
  rw [decodeOrReplacement_enc he, ← hn]

example : decodeOrReplacement [0xE2, 0x82, 0x61] = (0xFFFD, 2) := by decide +kernel
example : decodeOrReplacement (b!"€") = (0x20AC, 3) := by decide +kernel

/-- A text has one split into characters only. -/
theorem firstChar_unique {c c' : Nat} {p p' r r' : Bytes} (h : FirstChar c p r)
    (h' : FirstChar c' p' r') (e : p ++ r = p' ++ r') : c = c' ∧ p = p' ∧ r = r' := by
  rcases h with ⟨hs, rfl⟩ | ⟨rfl, hp, hm⟩ <;> rcases h' with ⟨hs', rfl⟩ | ⟨rfl, hp', hm'⟩
  · exact enc_unique (enc_utf8 hs) (enc_utf8 hs') e
  · exact absurd ⟨r, e⟩ (hm'.1 c hs)
  · exact absurd ⟨r', e.symm⟩ (hm.1 c' hs')
  · have key : ∀ {p p' r r' : Bytes}, p ++ r = p' ++ r' → MaximalSubpart p r → MaximalSubpart p' r' →
        p ≠ [] → p' ≠ [] → ¬ p.length < p'.length := by
      intro p p' r r' e hm hm' hp hp' hlt
      rcases hm'.2.1 with h1 | h1
      · have := List.length_pos_iff.2 hp
        omega
      · exact hm.2.2 p' ⟨r', e.symm⟩ hlt h1
    have h1 := key e hm hm' hp hp'
    have h2 := key e.symm hm' hm hp' hp
    exact ⟨rfl, List.append_inj e (by omega)⟩

/-- Every byte string splits into characters in exactly one way. -/
theorem C14_chars_exist_unique (s : Bytes) : ∃ cs, Chars s cs ∧ ∀ cs', Chars s cs' → cs' = cs := by
  induction hn : s.length using Nat.strongRecOn generalizing s with
  | _ n ih =>
    by_cases hs : s = []
    · subst hs
      refine ⟨[], .nil, ?_⟩
      intro cs' h
      generalize ht : ([] : Bytes) = t at h
      cases h with
      | nil => rfl
      | @cons c p rest cs hf _ =>
        have : p = [] := by simp at ht; exact ht.1
        rcases hf with ⟨h1, h2⟩ | ⟨_, h1, _⟩
        · exact absurd (h2 ▸ this) (enc_ne_nil (enc_utf8 h1))
        · exact absurd this h1
    · obtain ⟨p, rest, rfl, _, hf⟩ := firstChar_decode hs
      have hp : p ≠ [] := by
        rcases hf with ⟨h1, h2⟩ | ⟨_, h1, _⟩
        · exact h2 ▸ enc_ne_nil (enc_utf8 h1)
        · exact h1
      have := List.length_pos_iff.2 hp
      obtain ⟨cs, hc, hu⟩ := ih rest.length (by simp at hn; omega) rest rfl
      refine ⟨_, .cons hf hc, ?_⟩
      intro cs' h'
      generalize ht : p ++ rest = t at h'
      cases h' with
      | nil => simp [hp] at ht
      | @cons c' p' rest' cs' hf' hc' =>
        obtain ⟨rfl, rfl, rfl⟩ := firstChar_unique hf hf' ht
        rw [hu _ hc']

/-! ## C15: searching -/

theorem chars_step {s : Bytes} {cs : List (Nat × Bytes)} (h : Chars s cs) (hs : s ≠ []) :
    ∃ cs', cs = ((decodeOrReplacement s).1, s.take (decodeOrReplacement s).2) :: cs' ∧
      Chars (s.drop (decodeOrReplacement s).2) cs' := by
  obtain ⟨p, rest, he, hn, hf⟩ := firstChar_decode hs
  rw [hn]
  generalize (decodeOrReplacement s).1 = c at hf
  subst he
  generalize ht : p ++ rest = t at h
  cases h with
  | nil => exact absurd ht hs
  | @cons c' p' rest' cs' hf' hc' =>
    obtain ⟨rfl, rfl, rfl⟩ := firstChar_unique hf hf' ht
    exact ⟨cs', by simp, by simpa using hc'⟩

theorem findIfTail_spec (pred : Nat → Bool) (expected : Bool) (npos fuel units : Nat) (s : Bytes)
    (cs : List (Nat × Bytes)) (h : Chars s cs) (hf : s.length ≤ fuel) :
    findIfTail pred expected npos fuel units s =
      .ok (match firstOffset (fun c => pred c == expected) cs with
        | some k => units + k
        | none => npos) := by
  induction fuel generalizing units s cs with
  | zero =>
    obtain rfl := List.length_eq_zero_iff.1 (Nat.le_zero.1 hf)
    obtain ⟨cs₀, h₀, hu⟩ := C14_chars_exist_unique []
    obtain rfl := hu cs h
    obtain rfl := hu [] .nil
    rfl
  | succ fuel ih =>
    obtain _ | ⟨a, t⟩ := s
    · obtain ⟨cs₀, h₀, hu⟩ := C14_chars_exist_unique []
      obtain rfl := hu cs h
      obtain rfl := hu [] .nil
      rfl
    have hl := decodeOrReplacement_length (s := a :: t) (by simp)
    obtain ⟨cs', rfl, hc⟩ := chars_step h (by simp)
    simp only [findIfTail, firstOffset]
    by_cases hp : pred (decodeOrReplacement (a :: t)).1 = expected
    · simp [hp]
    · rw [if_neg hp, if_pos hl.2.2, ih _ _ _ hc (by simp at hf hl ⊢; omega)]
      simp only [beq_iff_eq, hp, if_false]
      cases firstOffset (fun c => pred c == expected) cs' with
      | none => simp
      | some k => simp; rw [Nat.min_eq_left (by simpa using hl.2.2)]; omega

theorem findIf_spec (pred : Nat → Bool) (expected : Bool) (npos fuel units : Nat) (s : Bytes)
    (cs : List (Nat × Bytes)) (h : Chars s cs) (hf : s.length ≤ fuel) :
    findIf pred expected npos fuel units s =
      .ok (match firstOffset (fun c => pred c == expected) cs with
        | some k => units + k
        | none => npos) := by
  induction fuel generalizing units s cs with
  | zero =>
    obtain rfl := List.length_eq_zero_iff.1 (Nat.le_zero.1 hf)
    exact findIfTail_spec pred expected npos 0 units [] cs h hf
  | succ fuel ih =>
    unfold findIf
    split
    · rename_i b0 b1 b2 b3 t
      simp only
      have hl := decodeOrReplacement_length (s := b0 :: b1 :: b2 :: b3 :: t) (by simp)
      obtain ⟨cs', rfl, hc⟩ := chars_step h (by simp)
      rw [decodeOrReplacement4_eq b0 b1 b2 b3 t]
      simp only [firstOffset]
      by_cases hp : pred (decodeOrReplacement (b0 :: b1 :: b2 :: b3 :: t)).1 = expected
      · simp [hp]
      · rw [if_neg hp, if_pos hl.2.2, ih _ _ _ hc (by simp at hf hl ⊢; omega)]
        simp only [beq_iff_eq, hp, if_false]
        cases firstOffset (fun c => pred c == expected) cs' with
        | none => simp
        | some k => simp; rw [Nat.min_eq_left (by simpa using hl.2.2)]; omega
    · exact findIfTail_spec _ _ _ _ _ _ _ h hf

theorem chars_flatten {s : Bytes} {cs : List (Nat × Bytes)} (h : Chars s cs) :
    s = cs.flatMap (·.2) := by
  induction h with
  | nil => rfl
  | cons _ _ ih => simp [← ih]

theorem firstOffset_le {pred : Nat → Bool} {cs : List (Nat × Bytes)} {k : Nat}
    (h : firstOffset pred cs = some k) : k ≤ (cs.flatMap (·.2)).length := by
  induction cs generalizing k with
  | nil => simp [firstOffset] at h
  | cons x cs ih =>
    obtain ⟨c, p⟩ := x
    simp only [firstOffset] at h
    split at h
    · obtain rfl := Option.some.inj h
      omega
    · cases hk : firstOffset pred cs with
      | none => simp [hk] at h
      | some j =>
        have := ih hk
        simp [hk] at h
        simp at this ⊢; omega

/-- Searching a byte string for a code point with a given property finds the byte offset of the
first such character of the text, with ill-formed parts counted as U+FFFD. -/
theorem C15_find_if (s : Bytes) (cs : List (Nat × Bytes)) (h : Chars s cs) (pred : Nat → Bool) :
    find_if s pred = .ok (firstOffset pred cs) ∧
    find_if_not s pred = .ok (firstOffset (fun c => !pred c) cs) ∧
    length_if s pred = .ok ((firstOffset (fun c => !pred c) cs).getD s.length) ∧
    length_if_not s pred = .ok ((firstOffset pred cs).getD s.length) := by
  have e1 : (fun c => pred c == true) = pred := by funext c; simp
  have e2 : (fun c => pred c == false) = fun c => !pred c := by funext c; cases pred c <;> rfl
  have key : ∀ q : Nat → Bool, ∀ k, firstOffset q cs = some k → k ≤ s.length := by
    intro q k hk
    have := firstOffset_le hk
    rwa [← chars_flatten h] at this
  refine ⟨?_, ?_, ?_, ?_⟩
  · rw [find_if, findIf_spec _ _ _ _ _ _ _ h (Nat.le_refl _), e1]
    cases hk : firstOffset pred cs with
    | none => simp [Except.map]
    | some k => have := key _ _ hk; simp [Except.map]; omega
  · rw [find_if_not, findIf_spec _ _ _ _ _ _ _ h (Nat.le_refl _), e2]
    cases hk : firstOffset (fun c => !pred c) cs with
    | none => simp [Except.map]
    | some k => have := key _ _ hk; simp [Except.map]; omega
  · rw [length_if, findIf_spec _ _ _ _ _ _ _ h (Nat.le_refl _), e2]
    cases firstOffset (fun c => !pred c) cs <;> simp
  · rw [length_if_not, findIf_spec _ _ _ _ _ _ _ h (Nat.le_refl _), e1]
    cases firstOffset pred cs <;> simp

theorem checkIfAny_eq (pred : Nat → Bool) (expected : Bool) (fuel : Nat) (s : Bytes) (units : Nat)
    (npos : Nat) (hn : units + s.length < npos) :
    (findIf pred expected npos fuel units s).map (fun r => r != npos) = checkIfAny pred expected fuel s := by
  have tail : ∀ fuel (s : Bytes) units, units + s.length < npos →
      (findIfTail pred expected npos fuel units s).map (fun r => r != npos)
        = checkIfAnyTail pred expected fuel s := by
    intro fuel
    induction fuel with
    | zero => intro s units hn; cases s <;> simp [findIfTail, checkIfAnyTail, Except.map]
    | succ fuel ih =>
      intro s units hn
      obtain _ | ⟨a, t⟩ := s
      · simp [findIfTail, checkIfAnyTail, Except.map]
      simp only [findIfTail, checkIfAnyTail]
      split
      · simp [Except.map]; omega
      split
      · exact ih _ _ (by simp only [List.length_drop]; omega)
      · rfl
  induction fuel generalizing s units with
  | zero =>
    obtain _ | ⟨b0, _ | ⟨b1, _ | ⟨b2, _ | ⟨b3, t⟩⟩⟩⟩ := s
    · exact tail _ _ _ hn
    · exact tail _ _ _ hn
    · exact tail _ _ _ hn
    · exact tail _ _ _ hn
    · rfl
  | succ fuel ih =>
    obtain _ | ⟨b0, _ | ⟨b1, _ | ⟨b2, _ | ⟨b3, t⟩⟩⟩⟩ := s
    · exact tail _ _ _ hn
    · exact tail _ _ _ hn
    · exact tail _ _ _ hn
    · exact tail _ _ _ hn
    · simp only [findIf, checkIfAny]
      split
      · simp [Except.map]; omega
      split
      · exact ih _ _ (by simp only [List.length_drop]; omega)
      · rfl

/-- The four tests ask whether all, any or no characters of the text satisfy the predicate. -/
theorem C15_quantifiers (s : Bytes) (cs : List (Nat × Bytes)) (h : Chars s cs) (pred : Nat → Bool) :
    all_of s pred = .ok (cs.all fun x => pred x.1) ∧
    any_of s pred = .ok (cs.any fun x => pred x.1) ∧
    none_of s pred = .ok (!cs.any fun x => pred x.1) ∧
    any_not_of s pred = .ok (!cs.all fun x => pred x.1) := by
  have hany : ∀ q : Nat → Bool, (firstOffset q cs).isSome = cs.any fun x => q x.1 := by
    intro q
    clear h
    induction cs with
    | nil => rfl
    | cons x cs ih =>
      obtain ⟨c, p⟩ := x
      simp only [firstOffset, List.any_cons, ← ih]
      cases q c <;> simp
  have base : ∀ expected, checkIfAny pred expected s.length s
      = .ok (cs.any fun x => pred x.1 == expected) := by
    intro expected
    rw [← checkIfAny_eq pred expected s.length s 0 (s.length + 1) (by omega),
      findIf_spec _ _ _ _ _ _ _ h (Nat.le_refl _), ← hany (fun c => pred c == expected)]
    cases hk : firstOffset (fun c => pred c == expected) cs with
    | none => simp [Except.map]
    | some k =>
      have := firstOffset_le hk
      rw [← chars_flatten h] at this
      simp [Except.map]; omega
  have e1 : (cs.any fun x => pred x.1 == true) = cs.any fun x => pred x.1 := by
    congr 1; funext x; simp
  have e2 : (cs.any fun x => pred x.1 == false) = !cs.all fun x => pred x.1 := by
    rw [List.not_all_eq_any_not]; congr 1; funext x; cases pred x.1 <;> rfl
  simp only [all_of, any_of, none_of, any_not_of, base, e1, e2, Except.map, Bool.not_not, and_self]

example : find_if (b!"aé€!") (· == 0x20AC) = .ok (some 3) := by rfl

end Ulight.Utf8
