import Verif.Hl.Written

/-!
# Options that fit a notation
-/

namespace Ulight

open Spec


/-- The options of the matcher agree with the notation. -/
def FitsRadix (o : NumberOptions) (R : Radix) : Bool :=
  [2, 8, 10, 16].contains R.base &&
  -- signs
  (R.pre.all fun c => c ≠ c!"+" && c ≠ c!"-") &&
  -- prefixes
  (if R.pre = [] then
    R.base = 10 && R.base = o.defaultBase && R.base = o.defaultLeadingZeroBase && R.exps.isSome &&
    o.prefixes.all fun p => match p.str with
      | c :: x :: _ => if c = c!"0" then isAlpha x && !((R.exps.getD []).contains x) &&
          (R.ints ++ R.floats).all (·.head? ≠ some x) else !isDigit c && c ≠ c!"."
      | _ => false
  else
    match o.prefixes.find? fun p => startsWith R.pre p.str || startsWith p.str R.pre with
    | some p => p.str = R.pre && p.base = R.base && p.floatingPoint = R.exps.isSome
    | none => false) &&
  -- a point in the beginning
  (!R.point || (R.pre = [] && R.base = 10 && !o.nonemptyInteger)) &&
  -- the separator
  (!R.separated || o.digitSeparator = c!"_") && ((digitsOf R.base).all (· ≠ o.digitSeparator)) && o.digitSeparator ≠ c!"." && !isAlpha o.digitSeparator &&
  -- exponents
  ((R.exps.getD []).all fun c => isAlpha c && !isDigitBase c R.base &&
    [b!"", b!"+", b!"-"].all fun sign => o.exponentSeparators.find? (fun p => startsWith (c :: sign) p) = some (c :: sign)) &&
  (o.exponentSeparators.all fun p => p.all (!isDigit ·) && (match p with
    | c :: _ => isAlpha c && (R.ints ++ R.floats).all (·.head? ≠ some c)
    | [] => false)) &&
  -- suffixes
  ((R.ints ++ R.floats).all fun p => match p with
    | c :: _ => isAlpha c && !isDigitBase c R.base
    | [] => false)

theorem alpha_facts (c : UInt8) : isAlpha c = true → isDigitBase c 10 = false ∧ c ≠ c!"." ∧ c ≠ c!"+" ∧ c ≠ c!"-" := by
  revert c; apply forall_byte; decide +kernel

theorem digit_facts (c : UInt8) : c ∈ digitsOf 16 → c ≠ c!"." ∧ c ≠ c!"+" ∧ c ≠ c!"-" := by
  revert c; apply forall_byte; decide +kernel

theorem digit_le {base : Nat} (hb : base = 2 ∨ base = 8 ∨ base = 10 ∨ base = 16) {c : UInt8} (h : c ∈ digitsOf base) :
    c ∈ digitsOf 16 := by
  revert h; revert c; rcases hb with rfl | rfl | rfl | rfl <;> (apply forall_byte; decide +kernel)

theorem boundary_byte (c : UInt8) :
    (c.toNat < 0x80 ∧ ((0x61 ≤ c.toNat ∧ c.toNat ≤ 0x7A ∨ 0x41 ≤ c.toNat ∧ c.toNat ≤ 0x5A) → False) ∧
      ((0x30 ≤ c.toNat ∧ c.toNat ≤ 0x39) → False) ∧ c ∉ b!"_.") →
    isAlpha c = false ∧ isDigitBase c 16 = false ∧ isDigit c = false ∧ c ≠ c!"_" ∧ c ≠ c!"." ∧ c ∉ digitsOf 16 := by
  revert c; apply forall_byte; decide +kernel

theorem Boundary.facts {b : Bytes} (h : Boundary b) {c : UInt8} (hc : b.head? = some c) :
    isAlpha c = false ∧ isDigitBase c 16 = false ∧ isDigit c = false ∧ c ≠ c!"_" ∧ c ≠ c!"." ∧ c ∉ digitsOf 16 :=
  boundary_byte c (h c hc)

theorem startsWith_append_of {p u v : Bytes} (h : startsWith (u ++ v) p = true)
    (hv : ∀ c, v.head? = some c → c ∉ p) : startsWith u p = true := by
  obtain ⟨t, ht⟩ := startsWith_iff.1 h
  by_cases hl : p.length ≤ u.length
  · have : p <+: u := List.prefix_of_prefix_length_le (l₃ := u ++ v) ⟨t, ht.symm⟩ ⟨v, rfl⟩ hl
    obtain ⟨w, hw⟩ := this
    exact startsWith_iff.2 ⟨w, hw.symm⟩
  · exfalso
    have hp : (u ++ v)[u.length]? = p[u.length]? := by
      rw [ht, List.getElem?_append_left (by omega)]
    rw [List.getElem?_append_right (by omega)] at hp
    simp only [Nat.sub_self] at hp
    rw [List.getElem?_eq_getElem (l := p) (by omega)] at hp
    exact hv _ (by rw [List.head?_eq_getElem?]; exact hp) (List.getElem_mem _)

theorem find_congr_of {α : Type} {l : List α} {p q : α → Bool} (h : ∀ x ∈ l, p x = q x) : l.find? p = l.find? q := by
  induction l with
  | nil => rfl
  | cons a l ih =>
    simp only [List.find?_cons]
    rw [h a (by simp), ih fun x hx => h x (by simp [hx])]

theorem isDigit_of_mem {c : UInt8} : c ∈ digitsOf 10 → isDigit c = true := by
  revert c; apply forall_byte; decide +kernel

/-- A number in a notation that fits the options. -/
theorem number_of_fits {o : NumberOptions} {R : Radix} {n : Written} {b : Bytes} (hf : FitsRadix o R = true)
    (hn : n.In R) (hb : Boundary b) (hs : n.suf ++ b ≠ [] → numSuffix o (n.suf ++ b) = n.suf.length)
    (hsep : o.digitSeparator = c!"_" ∨ o.digitSeparator = 0) :
    matchCommonNumber (n.text ++ b) o = n.result ∧
      ∀ g ∈ n.int ++ n.frac ++ [n.digits], ∀ c ∈ g, c ∈ digitsOf 16 := by
  simp only [FitsRadix, Bool.and_eq_true] at hf
  obtain ⟨⟨⟨⟨⟨⟨⟨⟨⟨⟨f1, f2⟩, f3⟩, fp⟩, fs⟩, f4⟩, f5⟩, f6⟩, f7⟩, f8⟩, f9⟩ := hf
  have hbase : R.base = 2 ∨ R.base = 8 ∨ R.base = 10 ∨ R.base = 16 := by simpa using f1
  have hlast : ∀ c, b.head? = some c → isDigitBase c R.base = false ∧ isDigitBase c 10 = false ∧
      (o.digitSeparator ≠ 0 → c ≠ o.digitSeparator) ∧ c ≠ c!"." := by
    intro c hc
    obtain ⟨_, _, _, h4, h5, h6⟩ := Boundary.facts hb hc
    have key : ∀ {base : Nat}, (base = 2 ∨ base = 8 ∨ base = 10 ∨ base = 16) → isDigitBase c base = false := by
      intro base h
      rw [Bool.eq_false_iff, ne_eq, digits_iff h]
      exact fun hm => h6 (digit_le h hm)
    refine ⟨key hbase, key (.inr (.inr (.inl rfl))), fun h0 => ?_, h5⟩
    rcases hsep with h | h
    · rw [h]; exact h4
    · exact absurd h h0
  have hsuf : ∀ c t, n.suf = c :: t → isAlpha c = true ∧ isDigitBase c R.base = false ∧ n.suf ∈ R.ints ++ R.floats := by
    intro c t h
    rcases hn.suf with h0 | h0
    · simp [h0] at h
    · have hm : n.suf ∈ R.ints ++ R.floats := by split at h0 <;> simp [h0]
      have := List.all_eq_true.1 f9 _ hm
      rw [h] at this
      simp at this
      exact ⟨this.1, this.2, hm⟩
  have hT : ∀ c, (n.suf ++ b).head? = some c → isDigitBase c R.base = false ∧ isDigitBase c 10 = false ∧
      (o.digitSeparator ≠ 0 → c ≠ o.digitSeparator) ∧ c ≠ c!"." := by
    intro c hc
    cases hsf : n.suf with
    | nil => exact hlast c (by simpa [hsf] using hc)
    | cons x t =>
      rw [hsf] at hc
      cases hc
      obtain ⟨h1, h2, _⟩ := hsuf _ _ hsf
      have h3 := alpha_facts c h1
      refine ⟨h2, h3.1, ?_, h3.2.1⟩
      rintro _ rfl
      simp [h1] at f6
  have hsepdig : ∀ c ∈ digitsOf R.base, c ≠ o.digitSeparator := by simpa using f4
  have hdot : isDigitBase c!"." R.base = false := by
    rcases hbase with h | h | h | h <;> rw [h] <;> decide
  have htext : n.text ++ b =
      n.pre ++ (joined n.int ++ (n.point ++ (joined n.frac ++ (n.exp ++ (n.digits ++ (n.suf ++ b)))))) := by
    simp [Written.text, Written.parts, joined]
  have hgroups : ∀ gs, R.Groups gs → DigitGroups R.base o.digitSeparator gs := by
    intro gs ⟨h1, h2, h3⟩
    refine ⟨h1, fun g hg => ⟨(h2 g hg).1, fun c hc => ⟨(digits_iff hbase c).2 ((h2 g hg).2 c hc), hsepdig c ((h2 g hg).2 c hc)⟩⟩, ?_⟩
    cases hsp : R.separated with
    | true => exact .inl (by simpa [hsp] using fs)
    | false => exact .inr (h3 hsp)
  have hpoint : R.point = true → R.pre = [] ∧ R.base = 10 ∧ o.nonemptyInteger = false := by
    intro h
    simpa [h, and_assoc] using fp
  have hfirst : ∃ d ds, joined n.int ++ (n.point ++ (joined n.frac ++ (n.exp ++ (n.digits ++ (n.suf ++ b))))) = d :: ds ∧
      ((d ∈ digitsOf R.base ∧ ∃ ts, joined n.int = d :: ts) ∨ d = c!".") := by
    rcases hn.int with h | ⟨h1, _, h2⟩
    · obtain ⟨g, gs, hg⟩ := List.exists_cons_of_ne_nil h.1
      have := h.2.1 g (by simp [hg])
      obtain ⟨c, t, hc⟩ := List.exists_cons_of_ne_nil this.1
      exact ⟨c, _, by rw [hg, joined_cons, hc]; rfl, .inl ⟨this.2 c (by simp [hc]), _, by rw [hg, joined_cons, hc]; rfl⟩⟩
    · rcases hn.frac with ⟨_, h⟩ | ⟨_, h, _⟩
      · exact absurd h h2
      · exact ⟨c!".", _, by rw [h1, h]; rfl, .inr rfl⟩
  obtain ⟨d, ds, hd, hdd⟩ := hfirst
  have hd16 : d ≠ c!"+" ∧ d ≠ c!"-" := by
    rcases hdd with ⟨h, _⟩ | h
    · exact (digit_facts d (digit_le hbase h)).2
    · rw [h]; decide
  constructor
  · refine matchCommonNumber_eq (base := R.base) (float := R.exps.isSome) ?_ ?_ ?_ ?_ ?_ ?_ hs hT ?_ hdot
    · -- sign
      rw [htext]
      unfold numSign
      have : ∀ x r, (x ≠ c!"+" ∧ x ≠ c!"-") → ((o.plus && startsWith (x :: r) b!"+") || (o.minus && startsWith (x :: r) b!"-")) = false := by
        intro x r ⟨h1, h2⟩
        simp [startsWith_cons_cons, Ne.symm h1, Ne.symm h2]
      cases hp : n.pre with
      | nil =>
        rw [hd, List.nil_append, this]
        · rfl
        · exact hd16
      | cons x t =>
        rw [List.cons_append, this]
        · rfl
        · rw [← hn.pre, hp] at f2
          simp at f2
          exact f2.1
    · -- prefix
      rw [htext]
      unfold numPrefix
      by_cases hp : R.pre = []
      · rw [if_pos hp] at f3
        simp only [Bool.and_eq_true, decide_eq_true_eq] at f3
        obtain ⟨⟨⟨⟨g0, g1⟩, g2⟩, g3⟩, g4⟩ := f3
        have hp' : n.pre = [] := by rw [hn.pre, hp]
        have : o.prefixes.find? (fun p => startsWith (n.pre ++ (joined n.int ++ (n.point ++ (joined n.frac ++ (n.exp ++ (n.digits ++ (n.suf ++ b))))))) p.str) = none := by
          rw [List.find?_eq_none]
          intro p hm
          have hall := List.all_eq_true.1 g4 p hm
          split at hall
          · rename_i c x t hstr
            rw [hstr, hp', hd]
            intro hst
            obtain ⟨u, hu⟩ := startsWith_iff.1 hst
            simp only [List.nil_append, List.cons_append, List.cons.injEq] at hu
            obtain ⟨rfl, hu⟩ := hu
            split at hall
            · rename_i h0
              have hj : joined n.int = [c!"0"] := by
                rcases hdd with ⟨_, ts, h⟩ | h
                · rcases hn.zero hp' with h' | h'
                  · rw [h']; rfl
                  · cases hi : n.int with
                    | nil => rw [hi] at h; cases h
                    | cons g gs =>
                      have hg := h' g (by simp [hi])
                      rw [hi, joined_cons] at h
                      have hgne : g ≠ [] := by
                        rcases hn.int with h2 | ⟨h2, _⟩
                        · exact (h2.2.1 g (by simp [hi])).1
                        · rw [hi] at h2; cases h2
                      obtain ⟨y, ys, rfl⟩ := List.exists_cons_of_ne_nil hgne
                      simp at h hg
                      exact absurd (h.1.trans h0) hg
                · rw [h0] at h; exact absurd h (by decide)
              rw [hj] at hd
              simp only [List.cons_append, List.nil_append, List.cons.injEq] at hd
              rw [← hd.2] at hu
              simp only [Bool.and_eq_true, Bool.not_eq_true', List.all_eq_true] at hall
              obtain ⟨⟨a1, a2⟩, a3⟩ := hall
              rcases hn.frac with ⟨h1, h2⟩ | ⟨_, h1, _⟩
              · rw [h1, h2, joined_nil, List.nil_append, List.nil_append] at hu
                rcases hn.exp with ⟨h1, h2⟩ | ⟨⟨ls, hls, c, hc, sign, hsg, he⟩, h3⟩
                · rw [h1, h2, List.nil_append, List.nil_append] at hu
                  cases hsf : n.suf with
                  | nil =>
                    rw [hsf, List.nil_append] at hu
                    have := (Boundary.facts hb (c := x) (by rw [hu]; rfl)).1
                    rw [a1] at this
                    cases this
                  | cons y ys =>
                    have := a3 _ (hsuf _ _ hsf).2.2
                    rw [hsf] at this hu
                    simp only [List.cons_append, List.cons.injEq] at hu
                    simp [hu.1] at this
                · rw [he] at hu
                  simp only [List.cons_append, List.cons.injEq] at hu
                  rw [hls, ← hu.1] at a2
                  simp [hc] at a2
              · rw [h1] at hu
                simp only [List.cons_append, List.cons.injEq] at hu
                rw [← hu.1] at a1
                exact absurd a1 (by decide)
            · simp only [Bool.and_eq_true, Bool.not_eq_true', decide_eq_true_eq] at hall
              rcases hdd with ⟨h, _⟩ | h
              · rw [isDigit_of_mem (by rw [← g0]; exact h)] at hall
                exact absurd hall.1 (by decide)
              · exact hall.2 h
          · cases hall
        rw [this]
        simp only [hp', List.length_nil, g3, ← g1, ← g2, ite_self]
      · rw [if_neg hp] at f3
        split at f3
        · rename_i p hfind
          simp only [Bool.and_eq_true, decide_eq_true_eq] at f3
          obtain ⟨⟨g1, g2⟩, g3⟩ := f3
          have : o.prefixes.find? (fun p => startsWith (n.pre ++ (joined n.int ++ (n.point ++ (joined n.frac ++ (n.exp ++ (n.digits ++ (n.suf ++ b))))))) p.str) = some p := by
            rw [List.find?_eq_some_iff_append] at hfind ⊢
            obtain ⟨h1, as, bs, h2, h3⟩ := hfind
            refine ⟨by rw [hn.pre, g1]; exact startsWith_iff.2 ⟨_, rfl⟩, as, bs, h2, ?_⟩
            intro q hq
            have := h3 q hq
            simp only [Bool.not_eq_true', Bool.or_eq_false_iff] at this ⊢
            rw [Bool.eq_false_iff]
            intro hst
            obtain ⟨t, ht⟩ := startsWith_iff.1 hst
            rw [hn.pre] at ht
            rcases List.append_eq_append_iff.1 ht with ⟨u, hu, _⟩ | ⟨u, hu, _⟩
            · have := this.2
              rw [startsWith_iff.2 ⟨u, hu⟩] at this
              cases this
            · have := this.1
              rw [startsWith_iff.2 ⟨u, hu⟩] at this
              cases this
          rw [this]
          simp [g1, g2, g3, hn.pre]
        · cases f3
    · rcases hn.int with h | ⟨h1, h2, h3⟩
      · exact .inl (hgroups _ h)
      · refine .inr ⟨h1, ?_, (hpoint h2).2⟩
        rcases hn.frac with ⟨_, h⟩ | ⟨_, h, _⟩
        · exact absurd h h3
        · simp [h]
    · rcases hn.frac with h | ⟨h1, h2, h3⟩
      · exact .inl h
      · refine .inr ⟨?_, h2, hgroups _ h3⟩
        cases hx : R.exps <;> simp_all
    · rcases hn.exp with h | ⟨⟨ls, hls, c, hc, sign, hsg, he⟩, h3⟩
      · exact .inl h
      · rw [hls] at f7
        have g := List.all_eq_true.1 f7 c hc
        simp only [Bool.and_eq_true, List.all_eq_true] at g
        obtain ⟨⟨g1, g2⟩, g3⟩ := g
        have g3 := g3 sign hsg
        refine .inr ⟨by simp [hls], ?_, ⟨c, sign, he, by simpa using g2, ?_, (alpha_facts c g1).2.1⟩, h3.1,
          fun c hc => (digits_iff (.inr (.inr (.inl rfl))) c).2 (h3.2 c hc)⟩
        · have g3 : o.exponentSeparators.find? (fun p => startsWith (c :: sign) p) = some (c :: sign) := by simpa using g3
          rw [he, ← g3]
          apply find_congr_of
          intro p hp
          rw [Bool.eq_iff_iff]
          constructor
          · intro h
            refine startsWith_append_of (v := n.digits ++ n.suf ++ b) (by simpa using h) ?_
            intro x hx hxp
            have := List.all_eq_true.1 f8 p hp
            simp only [Bool.and_eq_true, List.all_eq_true] at this
            have hnd := this.1 x hxp
            obtain ⟨y, ys, hy⟩ := List.exists_cons_of_ne_nil h3.1
            rw [hy] at hx
            cases hx
            have := h3.2 x (by simp [hy])
            rw [isDigit_of_mem this] at hnd
            cases hnd
          · intro h
            obtain ⟨t, ht⟩ := startsWith_iff.1 h
            exact startsWith_iff.2 ⟨t ++ (n.digits ++ n.suf ++ b), by rw [← List.append_assoc, ← ht]; simp⟩
        · rintro rfl
          simp [g1] at f6
    · intro _ _
      rw [List.find?_eq_none]
      intro p hp
      have := List.all_eq_true.1 f8 p hp
      simp only [Bool.and_eq_true, List.all_eq_true] at this
      obtain ⟨_, h2⟩ := this
      cases p with
      | nil => cases h2
      | cons c t =>
        simp only [Bool.and_eq_true, List.all_eq_true] at h2
        intro hst
        obtain ⟨r, hr⟩ := startsWith_iff.1 hst
        cases hsf : n.suf with
        | nil =>
          rw [hsf] at hr
          have := (Boundary.facts hb (c := c) (by simp at hr; simp [hr])).1
          rw [this] at h2
          exact absurd h2.1 (by decide)
        | cons x t =>
          rw [hsf] at hr
          simp at hr
          have := h2.2 _ (hsuf _ _ hsf).2.2
          rw [hsf] at this
          simp [hr.1] at this
    · rintro h
      simp [← h] at f5
  · intro g hg c hc
    rcases List.mem_append.1 hg with hg | hg
    · rcases List.mem_append.1 hg with hg | hg
      · rcases hn.int with h | ⟨h, _⟩
        · exact digit_le hbase ((h.2.1 g hg).2 c hc)
        · simp [h] at hg
      · rcases hn.frac with h | ⟨h1, h2, h3⟩
        · simp [h.2] at hg
        · exact digit_le hbase ((h3.2.1 g hg).2 c hc)
    · simp at hg
      subst hg
      rcases hn.exp with h | ⟨_, h3⟩
      · simp [h.2] at hc
      · exact digit_le (.inr (.inr (.inl rfl))) (h3.2 c hc)

/-- The suffixes of the options agree with the notation. -/
def FitsSuffixes (o : NumberOptions) (R : Radix) : Bool :=
  o.matchSuffix.isNone && (o.suffixes.all fun p => p ≠ [] && p.all isAlnum) &&
  (R.ints ++ R.floats).all fun w => o.suffixes.find? (fun p => startsWith w p) = some w

theorem isAlnum_of_boundary (c : UInt8) : isAlpha c = false → isDigit c = false → isAlnum c = false := by
  revert c; apply forall_byte; decide +kernel

theorem suffix_of_fits {o : NumberOptions} {R : Radix} {n : Written} {b : Bytes} (hf : FitsSuffixes o R = true)
    (hn : n.In R) (hb : Boundary b) : n.suf ++ b ≠ [] → numSuffix o (n.suf ++ b) = n.suf.length := by
  intro _
  simp only [FitsSuffixes, Bool.and_eq_true, List.all_eq_true] at hf
  obtain ⟨⟨f1, f2⟩, f3⟩ := hf
  have hnone : o.matchSuffix = none := by simpa using f1
  have hbn : ∀ c, b.head? = some c → isAlnum c = false := fun c hc =>
    have := Boundary.facts hb hc
    isAlnum_of_boundary c this.1 this.2.2.1
  have hfind : o.suffixes.find? (fun p => startsWith (n.suf ++ b) p) = o.suffixes.find? (fun p => startsWith n.suf p) := by
    apply find_congr_of
    intro p hp
    rw [Bool.eq_iff_iff]
    constructor
    · intro h
      refine startsWith_append_of h fun c hc hm => ?_
      have := (f2 p hp).2 c hm
      rw [hbn c hc] at this
      cases this
    · intro h
      obtain ⟨t, ht⟩ := startsWith_iff.1 h
      exact startsWith_iff.2 ⟨t ++ b, by rw [← List.append_assoc, ← ht]⟩
  unfold numSuffix
  rw [hfind, hnone]
  have key : n.suf = [] ∨ n.suf ∈ R.ints ++ R.floats := by
    rcases hn.suf with h | h
    · exact .inl h
    · exact .inr (by split at h <;> simp [h])
  rcases key with h | h
  · rw [h]
    have : o.suffixes.find? (fun p => startsWith [] p) = none := by
      rw [List.find?_eq_none]
      intro p hp h
      obtain ⟨t, ht⟩ := startsWith_iff.1 h
      have := (f2 p hp).1
      cases p <;> simp at ht this
    rw [this]
    split <;> rfl
  · have h := f3 _ h
    simp only [decide_eq_true_eq] at h
    rw [h]
    split
    · rfl
    · rename_i hx
      have : o.suffixes = [] := by simpa using hx
      rw [this] at h
      cases h

/-- The first byte of a number. -/
theorem Spec.Written.In.first {n : Written} {R : Radix} (hn : n.In R)
    (hp : R.pre = [] ∧ R.base = 10 ∨ ∃ t, R.pre = c!"0" :: t) :
    ∃ c t, n.text = c :: t ∧ (isDigit c = true ∨ R.point = true ∧ c = c!".") := by
  rcases hp with ⟨h, h'⟩ | ⟨t, h⟩
  · rcases hn.int with h1 | ⟨h1, h2, h3⟩
    · obtain ⟨g, gs, hg⟩ := List.exists_cons_of_ne_nil h1.1
      have := h1.2.1 g (by simp [hg])
      obtain ⟨c, t, hc⟩ := List.exists_cons_of_ne_nil this.1
      have hcm := this.2 c (by simp [hc])
      rw [h'] at hcm
      have hgr : ∃ t, groups n.int = (g, .number) :: t := by
        rw [hg]
        cases gs
        · exact ⟨_, rfl⟩
        · exact ⟨_, rfl⟩
      obtain ⟨ps, hps⟩ := hgr
      exact ⟨c, _, by simp only [Written.text, Written.parts, hn.pre, h, hps, hc]; rfl, .inl (isDigit_of_mem hcm)⟩
    · rcases hn.frac with ⟨_, h⟩ | ⟨_, h4, _⟩
      · exact absurd h h3
      · exact ⟨c!".", _, by simp only [Written.text, Written.parts, hn.pre, h, h1, h4, groups]; rfl, .inr ⟨h2, rfl⟩⟩
  · exact ⟨c!"0", _, by simp only [Written.text, Written.parts, hn.pre, h]; rfl, .inl rfl⟩

/-- The digits are digits, and there are several groups only if the separator is known. -/
def Separated (n : Written) (sep : Bool) : Prop :=
  (∀ g ∈ n.int ++ n.frac ++ [n.digits], ∀ c ∈ g, c ∈ digitsOf 16) ∧
    (sep = false → n.int.length ≤ 1 ∧ n.frac.length ≤ 1)

theorem separated_of {R : Radix} {n : Written} (hn : n.In R)
    (h : ∀ g ∈ n.int ++ n.frac ++ [n.digits], ∀ c ∈ g, c ∈ digitsOf 16) : Separated n R.separated := by
  refine ⟨h, fun hs => ⟨?_, ?_⟩⟩
  · rcases hn.int with h | ⟨h, _⟩
    · rw [h.2.2 hs]; decide
    · simp [h]
  · rcases hn.frac with ⟨_, h⟩ | ⟨_, _, h⟩
    · simp [h]
    · rw [h.2.2 hs]; decide

/-- What is known about a number that is written in one of the given ways. -/
theorem written_facts {o : NumberOptions} {Rs : List Radix} {R : Radix} {n : Written} {b : Bytes}
    (hf : Rs.all (fun R => FitsRadix o R && FitsSuffixes o R && ((R.pre = [] && R.base = 10) || startsWith R.pre b!"0")) = true)
    (hsep : o.digitSeparator = c!"_" ∨ o.digitSeparator = 0) (hR : R ∈ Rs) (hn : n.In R) (hb : Boundary b) :
    matchCommonNumber (n.text ++ b) o = n.result ∧ Separated n R.separated ∧
      n.text.length ≠ 0 ∧ ∃ c t, n.text ++ b = c :: t ∧ (isDigit c = true ∨ R.point = true ∧ c = c!".") := by
  have := List.all_eq_true.1 hf R hR
  simp only [Bool.and_eq_true, Bool.or_eq_true, decide_eq_true_eq] at this
  obtain ⟨⟨h1, h2⟩, h3⟩ := this
  obtain ⟨c, t, h4, h5⟩ := hn.first (by
    rcases h3 with h | h
    · exact .inl h
    · obtain ⟨t, ht⟩ := startsWith_iff.1 h
      exact .inr ⟨t, ht⟩)
  have := number_of_fits h1 hn hb (suffix_of_fits h2 hn hb) hsep
  exact ⟨this.1, separated_of hn this.2, by simp [h4], c, t ++ b, by simp [h4], h5⟩

/-- The same for languages without numbers that begin with a point. -/
theorem written_facts' {o : NumberOptions} {Rs : List Radix} {R : Radix} {n : Written} {b : Bytes}
    (hf : Rs.all (fun R => FitsRadix o R && FitsSuffixes o R && ((R.pre = [] && R.base = 10) || startsWith R.pre b!"0")) = true)
    (hp : Rs.all (fun R => !R.point) = true)
    (hsep : o.digitSeparator = c!"_" ∨ o.digitSeparator = 0) (hR : R ∈ Rs) (hn : n.In R) (hb : Boundary b) :
    matchCommonNumber (n.text ++ b) o = n.result ∧ Separated n R.separated ∧
      n.text.length ≠ 0 ∧ ∃ c t, n.text ++ b = c :: t ∧ isDigit c = true := by
  obtain ⟨h1, h2, h3, c, t, h4, h5⟩ := written_facts hf hsep hR hn hb
  have := List.all_eq_true.1 hp R hR
  refine ⟨h1, h2, h3, c, t, h4, ?_⟩
  rcases h5 with h | ⟨h, _⟩
  · exact h
  · rw [h] at this; cases this

theorem no_underscore (c : UInt8) : c ∈ digitsOf 16 → c ≠ c!"_" := by
  revert c; apply forall_byte; decide +kernel

@[simp] theorem Spec.Written.result_length (n : Written) : n.result.length = n.text.length := rfl

theorem wp_written_iff {σ : Type} {n : Written} {b r : Bytes} {c : UInt8} {debug : Bool} {opts : Opts} {sep : Option UInt8}
    {ext : σ} {Q : Unit → HS σ → Prop} {separated : Bool} (e : n.text ++ b = c :: r)
    (h0 : sep = some c!"_" ∨ sep = none ∧ separated = false) (hd : Separated n separated) :
    wp (HM.highlightNumber n.result sep) Q ⟨debug, opts, c :: r⟩ ⟨c :: r, 0, [], ext⟩ ↔
      Q () ⟨b, n.text.length, partsEmit 0 n.parts, ext⟩ := by
  have key : ∀ gs : List Bytes, (∀ g ∈ gs, ∀ c ∈ g, c ∈ digitsOf 16) → (separated = false → gs.length ≤ 1) → Splits sep gs := by
    intro gs h1 h2
    rcases h0 with rfl | ⟨rfl, h⟩
    · refine ⟨.inl rfl, ?_⟩
      rintro x hx g hg c hc
      cases hx
      exact no_underscore c (h1 g hg c hc)
    · exact ⟨.inr (h2 h), nofun⟩
  rw [← e, wp_highlightNumber_iff (by simp) (by rcases h0 with rfl | ⟨rfl, _⟩ <;> simp)
    (key _ (fun g hg => hd.1 g (by simp [hg])) fun h => (hd.2 h).1)
    (key _ (fun g hg => hd.1 g (by simp [hg])) fun h => (hd.2 h).2)
    (key _ (fun g hg => hd.1 g (by simp at hg; simp [hg])) (by simp))]
  simp

instance (base : Nat) (s : Bytes) : Decidable (Digits base s) := by unfold Digits; infer_instance

instance (R : Radix) (gs : List Bytes) : Decidable (R.Groups gs) := by unfold Radix.Groups; infer_instance

theorem boundary_space (t : Bytes) : Boundary (c!" " :: t) := by
  intro c hc
  cases hc
  simp [Letter, DecDigit]

theorem boundary_continue (c : UInt8) : c.toNat < 0x80 ∧ isAlpha c = false ∧ isDigit c = false ∧ c ≠ c!"_" →
    ¬ CppId.Continue c.toNat := by
  unfold CppId.Continue
  revert c; apply forall_byte; decide +kernel

/-- The characters of a text that begins with ASCII characters. -/
theorem chars_ascii {w b : Bytes} {cs : List (Nat × Bytes)} (h : Chars b cs) (hw : ∀ c ∈ w, c.toNat < 0x80) :
    Chars (w ++ b) (w.map (fun c => (c.toNat, [c])) ++ cs) := by
  induction w with
  | nil => exact h
  | cons c t ih =>
    have := Chars.cons (firstChar_ascii (hw c (by simp)) (t ++ b)) (ih fun x hx => hw x (by simp [hx]))
    simpa using this

/-- A word of ASCII characters in front of something else. -/
theorem Cpp.matchIdentifier_ascii {w b : Bytes} (hc : ∀ c ∈ w, c.toNat < 0x80 ∧ CppId.Continue c.toNat)
    (h : ∃ c t, w = c :: t ∧ CppId.Start c.toNat) (hb : Boundary b) : Cpp.matchIdentifier (w ++ b) = w.length := by
  obtain ⟨c, t, rfl, hs⟩ := h
  obtain ⟨cs, hcs, -⟩ := Utf8.C14_chars_exist_unique b
  refine Cpp.matchIdentifier_eq ⟨c.toNat, [c], t ++ b, rfl, firstChar_ascii (hc c (by simp)).1 _, hs, by simp,
    t.map (fun c => (c.toNat, [c])), cs, chars_ascii hcs fun x hx => (hc x (by simp [hx])).1, ?_, ?_, ?_⟩
  · simp [List.flatMap_map]
  · intro x hx
    obtain ⟨y, hy, rfl⟩ := List.mem_map.1 hx
    exact (hc y (by simp [hy])).2
  · intro x hx
    cases hcs with
    | nil => cases hx
    | cons hf hr =>
      cases hx
      rename_i c' p rest cs'
      have hne : p ≠ [] := by
        rintro rfl
        rcases hf with ⟨_, h⟩ | ⟨_, h, _⟩
        · have := congrArg List.length h
          unfold utf8 at this
          split at this <;> (try split at this) <;> (try split at this) <;> simp at this
        · exact h rfl
      obtain ⟨y, ys, rfl⟩ := List.exists_cons_of_ne_nil hne
      have hy := hb y rfl
      obtain ⟨f1, _, f3, f4, _⟩ := Boundary.facts hb (c := y) rfl
      obtain ⟨rfl, _, _⟩ := Utf8.firstChar_unique (firstChar_ascii hy.1 (ys ++ rest)) hf (by simp)
      exact boundary_continue y ⟨hy.1, f1, f3, f4⟩

theorem Cpp.matchIdentifier_digit {c : UInt8} (h : isDigit c = true) (r : Bytes) : Cpp.matchIdentifier (c :: r) = 0 := by
  have key : c.toNat < 0x80 ∧ ¬ CppId.Start c.toNat := by
    unfold CppId.Start
    revert h; revert c; apply forall_byte; decide +kernel
  rcases Cpp.matchIdentifier_facts (c :: r) with ⟨_, ⟨h1, _⟩ | ⟨_, h2⟩⟩
  · exact h1
  · exact absurd h2 (not_identifier (fun _ => (noFirst_ascii key.1).2 key.2) _)

theorem boundary_start (c : UInt8) : c.toNat < 0x80 ∧ isAlpha c = false ∧ isDigit c = false ∧ c ≠ c!"_" →
    ¬ CppId.Start c.toNat := by
  unfold CppId.Start
  revert c; apply forall_byte; decide +kernel

theorem Cpp.matchIdentifier_boundary {b : Bytes} (hb : Boundary b) : Cpp.matchIdentifier b = 0 := by
  cases b with
  | nil => rfl
  | cons c t =>
    obtain ⟨f1, _, f3, f4, _⟩ := Boundary.facts hb (c := c) rfl
    have h0 := (hb c rfl).1
    rcases Cpp.matchIdentifier_facts (c :: t) with ⟨_, ⟨h1, _⟩ | ⟨_, h2⟩⟩
    · exact h1
    · exact absurd h2 (not_identifier (fun _ => (noFirst_ascii h0).2 (boundary_start c ⟨h0, f1, f3, f4⟩)) _)

end Ulight
