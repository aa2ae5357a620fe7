import Verif.Hl.Compose
import Verif.Spec.Written

/-!
# Exact results for numbers
-/

namespace Ulight

open Spec

variable {σ : Type}

theorem digits_iff {base : Nat} (hb : base = 2 ∨ base = 8 ∨ base = 10 ∨ base = 16) (c : UInt8) :
    isDigitBase c base = true ↔ c ∈ digitsOf base := by
  rcases hb with rfl | rfl | rfl | rfl <;> (rw [← decide_eq_true_iff (p := c ∈ _), ← Bool.eq_iff_iff]; revert c; apply forall_byte; decide +kernel)

/-- No digit of the base and no separator comes next. -/
def NoDigit (base : Nat) (sep : UInt8) (r : Bytes) : Prop :=
  ∀ c, r.head? = some c → isDigitBase c base = false ∧ (sep ≠ 0 → c ≠ sep)

/-- The text of groups of digits. -/
def joined (gs : List Bytes) : Bytes := (groups gs).flatMap Prod.fst

@[simp] theorem joined_nil : joined [] = [] := rfl

theorem joined_cons (g : Bytes) (gs : List Bytes) :
    joined (g :: gs) = g ++ (if gs = [] then [] else c!"_" :: joined gs) := by
  cases gs <;> simp [joined, groups]

theorem joined_ne {gs : List Bytes} (h : gs ≠ []) (hg : ∀ g ∈ gs, g ≠ []) : joined gs ≠ [] := by
  obtain ⟨g, t, rfl⟩ := List.exists_cons_of_ne_nil h
  rw [joined_cons]
  simp [hg g (by simp)]

/-- Groups of digits, which may be separated. -/
def DigitGroups (base : Nat) (sep : UInt8) (gs : List Bytes) : Prop :=
  gs ≠ [] ∧ (∀ g ∈ gs, g ≠ [] ∧ ∀ c ∈ g, isDigitBase c base = true ∧ c ≠ sep) ∧ (sep = c!"_" ∨ gs.length = 1)

theorem sepLoop_digit {base : Nat} {sep c prev : UInt8} {err : Bool} {s : Bytes} (h : isDigitBase c base = true ∧ c ≠ sep) :
    sepLoop base sep prev err (c :: s) = ((sepLoop base sep c err s).1 + 1, (sepLoop base sep c err s).2) := by
  conv => lhs; unfold sepLoop
  simp [h]

theorem isDigit_of_base (c : UInt8) : isDigitBase c 10 = true → isDigit c = true := by
  revert c; apply forall_byte; decide +kernel

theorem sepLoop_group {base : Nat} {sep : UInt8} {r : Bytes} (s : Bytes) (prev : UInt8) (h0 : s ≠ [])
    (hs : ∀ c ∈ s, isDigitBase c base = true ∧ c ≠ sep) : ∃ x, x ≠ sep ∧ sepLoop base sep prev false (s ++ r) =
      (s.length + (sepLoop base sep x false r).1, (sepLoop base sep x false r).2) := by
  induction s generalizing prev with
  | nil => exact absurd rfl h0
  | cons c t ih =>
    have h1 := hs c (by simp)
    rw [List.cons_append, sepLoop_digit h1]
    by_cases ht : t = []
    · subst ht
      refine ⟨c, h1.2, ?_⟩
      rw [List.nil_append, List.length_singleton, Nat.add_comm]
    · obtain ⟨x, hx, e⟩ := ih c ht (fun x hx => hs x (by simp [hx]))
      refine ⟨x, hx, ?_⟩
      rw [e, List.length_cons, Nat.add_right_comm]

theorem sepLoop_end {base : Nat} {sep : UInt8} {r : Bytes} (h0 : sep ≠ 0) (hr : NoDigit base sep r) {x : UInt8} (hx : x ≠ sep) :
    ∃ y, y ≠ sep ∧ sepLoop base sep x false r = (0, y, false) := by
  cases r with
  | nil => exact ⟨x, hx, rfl⟩
  | cons c t =>
    have := hr c rfl
    exact ⟨c, this.2 h0, by simp [sepLoop, this.1, this.2 h0]⟩

theorem sepLoop_eq {base : Nat} {sep : UInt8} {r : Bytes} (h0 : sep ≠ 0) (hr : NoDigit base sep r) (gs : List Bytes)
    (prev : UInt8) (hg : DigitGroups base sep gs) :
    ∃ y, y ≠ sep ∧ sepLoop base sep prev false (joined gs ++ r) = ((joined gs).length, y, false) := by
  obtain ⟨h1, h2, h3⟩ := hg
  induction gs generalizing prev with
  | nil => exact absurd rfl h1
  | cons g gs ih =>
    rw [joined_cons]
    have hg := h2 g (by simp)
    by_cases hn : gs = []
    · simp only [hn, if_true, List.append_nil]
      obtain ⟨x, hx, e⟩ := sepLoop_group (r := r) g prev hg.1 hg.2
      obtain ⟨y, hy, e'⟩ := sepLoop_end h0 hr hx
      exact ⟨y, hy, by rw [e, e']; simp⟩
    · have hsep : sep = c!"_" := by
        rcases h3 with h | h
        · exact h
        · simp at h; exact absurd h hn
      subst hsep
      simp only [hn, if_false]
      rw [List.append_assoc]
      obtain ⟨x, hx, e⟩ := sepLoop_group (r := c!"_" :: joined gs ++ r) g prev hg.1 hg.2
      obtain ⟨y, hy, e'⟩ := ih c!"_" hn (fun g hg => h2 g (by simp [hg])) (.inl rfl)
      refine ⟨y, hy, ?_⟩
      rw [e]
      simp only [List.cons_append]
      unfold sepLoop
      simp [hx, e']

theorem matchDigits_eq {base : Nat} {s r : Bytes} (hs : ∀ c ∈ s, isDigitBase c base = true)
    (hr : ∀ c, r.head? = some c → isDigitBase c base = false) : matchDigits (s ++ r) base = s.length := by
  refine length_if_eq ⟨by simpa using hs, ?_⟩ (by simp)
  intro c hc
  rw [List.getElem?_append_right (by omega)] at hc
  simp at hc
  simpa using hr c (by rw [List.head?_eq_getElem?]; exact hc)

theorem matchSeparatedDigits_eq {base : Nat} {sep : UInt8} {gs : List Bytes} {r : Bytes}
    (hs : DigitGroups base sep gs) (hr : NoDigit base sep r) :
    matchSeparatedDigits (joined gs ++ r) base sep = ⟨(joined gs).length, false⟩ := by
  unfold matchSeparatedDigits
  split
  · rename_i h0
    rw [matchDigits_eq ?_ (fun c hc => (hr c hc).1)]
    obtain ⟨h1, h2, h3⟩ := hs
    have : gs.length = 1 := by
      rcases h3 with h | h
      · rw [h0] at h; exact absurd h (by decide)
      · exact h
    obtain ⟨g, rfl⟩ := List.length_eq_one_iff.1 this
    rw [joined_cons]
    simp only [if_true, List.append_nil]
    exact fun c hc => ((h2 g (by simp)).2 c hc).1
  · rename_i hsep
    obtain ⟨y, hy, e⟩ := sepLoop_eq hsep hr gs sep hs
    rw [e]
    simp [hy]

theorem matchSeparatedDigits_none {base : Nat} {sep : UInt8} {c : UInt8} {r : Bytes} (h : isDigitBase c base = false)
    (h' : c ≠ sep) : matchSeparatedDigits (c :: r) base sep = ⟨0, false⟩ := by
  unfold matchSeparatedDigits
  split
  · rw [show matchDigits (c :: r) base = 0 from length_if_cons_neg h]
  · simp [sepLoop, h, h']

/-- The lengths of the parts. -/
def Spec.Written.result (n : Written) : NumberResult :=
  { length := n.text.length, pre := n.pre.length, integer := (joined n.int).length, radixPoint := n.point.length,
    fractional := (joined n.frac).length, exponentSep := n.exp.length, exponentDigits := n.digits.length,
    suffix := n.suf.length }

/-- What the matcher of numbers finds if the parts are known. -/
theorem matchCommonNumber_eq {o : NumberOptions} {n : Written} {b : Bytes} {base : Nat} {float : Bool}
    (hsign : numSign o (n.text ++ b) = 0) (hpre : numPrefix o (n.text ++ b) = (n.pre.length, base, float))
    (hi : DigitGroups base o.digitSeparator n.int ∨ n.int = [] ∧ n.point ≠ [] ∧ base = 10 ∧ o.nonemptyInteger = false)
    (hf : n.point = [] ∧ n.frac = [] ∨ float = true ∧ n.point = b!"." ∧ DigitGroups base o.digitSeparator n.frac)
    (he : n.exp = [] ∧ n.digits = [] ∨ float = true ∧
      o.exponentSeparators.find? (fun p => startsWith (n.exp ++ n.digits ++ n.suf ++ b) p) = some n.exp ∧
      (∃ c t, n.exp = c :: t ∧ isDigitBase c base = false ∧ c ≠ o.digitSeparator ∧ c ≠ c!".") ∧
      n.digits ≠ [] ∧ ∀ c ∈ n.digits, isDigitBase c 10 = true)
    (hne : float = true → n.exp = [] → o.exponentSeparators.find? (fun p => startsWith (n.suf ++ b) p) = none)
    (hs : n.suf ++ b ≠ [] → numSuffix o (n.suf ++ b) = n.suf.length)
    (ht : ∀ c, (n.suf ++ b).head? = some c → isDigitBase c base = false ∧ isDigitBase c 10 = false ∧
      (o.digitSeparator ≠ 0 → c ≠ o.digitSeparator) ∧ c ≠ c!".") (hdot : c!"." ≠ o.digitSeparator) (hdig : isDigitBase c!"." base = false) :
    matchCommonNumber (n.text ++ b) o = n.result := by
  obtain ⟨pre, ints, point, fracs, exp, digits, suf⟩ := n
  unfold Spec.Written.result
  simp only at *
  have e : Written.text ⟨pre, ints, point, fracs, exp, digits, suf⟩ ++ b =
      pre ++ (joined ints ++ (point ++ (joined fracs ++ (exp ++ (digits ++ (suf ++ b)))))) := by
    simp [Written.text, Written.parts, joined]
  have hl : (Written.text ⟨pre, ints, point, fracs, exp, digits, suf⟩).length = pre.length + (joined ints).length + point.length +
      (joined fracs).length + exp.length + digits.length + suf.length := by
    have := congrArg List.length e
    simp at this
    omega
  rw [hl]
  rw [e] at hsign hpre ⊢
  have hil : joined ints ≠ [] ∨ joined ints = [] ∧ point ≠ [] ∧ base = 10 ∧ o.nonemptyInteger = false := by
    rcases hi with h | ⟨rfl, h⟩
    · exact .inl (joined_ne h.1 fun g hg => (h.2.1 g hg).1)
    · exact .inr ⟨rfl, h⟩
  have h6 : ∀ r, NoDigit base o.digitSeparator r → (point ≠ [] → ∃ t, r = c!"." :: t) →
      matchSeparatedDigits (joined ints ++ r) base o.digitSeparator = ⟨(joined ints).length, false⟩ := by
    intro r hr hr'
    rcases hi with h | ⟨rfl, h, _⟩
    · exact matchSeparatedDigits_eq h hr
    · obtain ⟨t, rfl⟩ := hr' h
      exact matchSeparatedDigits_none hdig hdot
  have hf : point = [] ∧ joined fracs = [] ∨ float = true ∧ point = b!"." ∧ joined fracs ≠ [] ∧
      (base = 10 → ∀ x, ((joined fracs ++ x).head?.any isDigit) = true) ∧
      ∀ r, NoDigit base o.digitSeparator r →
        matchSeparatedDigits (joined fracs ++ r) base o.digitSeparator = ⟨(joined fracs).length, false⟩ := by
    rcases hf with ⟨rfl, rfl⟩ | ⟨h1, h2, h⟩
    · exact .inl ⟨rfl, rfl⟩
    · refine .inr ⟨h1, h2, joined_ne h.1 fun g hg => (h.2.1 g hg).1, ?_, fun r => matchSeparatedDigits_eq h⟩
      rintro rfl x
      obtain ⟨g, t, rfl⟩ := List.exists_cons_of_ne_nil h.1
      have := h.2.1 g (by simp)
      obtain ⟨c, u, rfl⟩ := List.exists_cons_of_ne_nil this.1
      rw [joined_cons]
      simpa using isDigit_of_base c (this.2 c (by simp)).1
  generalize joined ints = int at *
  generalize joined fracs = frac at *
  -- what follows the digits
  have h3 : ∀ c, (exp ++ (digits ++ (suf ++ b))).head? = some c → isDigitBase c base = false ∧
      (o.digitSeparator ≠ 0 → c ≠ o.digitSeparator) ∧ c ≠ c!"." := by
    intro c hc
    rcases he with ⟨rfl, rfl⟩ | ⟨_, _, ⟨c', t, rfl, h⟩, _⟩
    · have := ht c (by simpa using hc)
      exact ⟨this.1, this.2.2⟩
    · cases hc
      exact ⟨h.1, fun _ => h.2.1, h.2.2⟩
  have h4 : NoDigit base o.digitSeparator (exp ++ (digits ++ (suf ++ b))) :=
    fun c hc => ⟨(h3 c hc).1, (h3 c hc).2.1⟩
  have h5 : NoDigit base o.digitSeparator (point ++ (frac ++ (exp ++ (digits ++ (suf ++ b))))) := by
    rcases hf with ⟨rfl, rfl⟩ | ⟨_, rfl, _⟩
    · exact h4
    · intro c hc
      cases hc
      exact ⟨hdig, fun _ => hdot⟩
  have h6 := h6 _ h5 (by rcases hf with ⟨rfl, _⟩ | ⟨_, rfl, _⟩ <;> simp)
  have hne' : ¬ pre ++ (int ++ (point ++ (frac ++ (exp ++ (digits ++ (suf ++ b)))))) = [] := by rcases hil with h | ⟨_, h, _⟩ <;> simp [h]
  have h7 : numFraction o base pre.length int.length float (point ++ (frac ++ (exp ++ (digits ++ (suf ++ b))))) =
      some (point.length, frac.length, false) := by
    unfold numFraction
    rcases hf with ⟨rfl, rfl⟩ | ⟨rfl, rfl, hf0, hf2, hf1⟩
    · have : startsWith (exp ++ (digits ++ (suf ++ b))) b!"." = false := by
        cases hx : exp ++ (digits ++ (suf ++ b)) with
        | nil => rfl
        | cons c t =>
          have := (h3 c (by rw [hx]; rfl)).2.2
          simp [startsWith_cons_cons, Ne.symm this]
      simp [this]
    · have := hf1 _ h4
      have hb : ¬ (pre.length = 0 ∧ int.length = 0 ∧
          ((frac ++ (exp ++ (digits ++ (suf ++ b)))).head?.any isDigit) = false) := by
        rintro ⟨_, h2, h3⟩
        rcases hil with h | ⟨_, _, h, _⟩
        · exact h (List.length_eq_zero_iff.1 h2)
        · rw [hf2 h] at h3
          cases h3
      simp only [Bool.true_and, List.cons_append, List.nil_append, startsWith_cons_cons, List.drop_succ_cons, List.drop_zero, hb, this]
      simp [hf0, startsWith]
  have h8 : float = true → numExponent o (exp ++ (digits ++ (suf ++ b))) = (exp.length, digits.length, false) := by
    intro hfl
    unfold numExponent
    rcases he with ⟨rfl, rfl⟩ | ⟨_, hf2, ⟨c', t, _, _⟩, hd0, hd1⟩
    · simp [hne hfl rfl]
    · rw [show exp ++ digits ++ suf ++ b = exp ++ (digits ++ (suf ++ b)) by simp] at hf2
      rw [hf2]
      have := matchDigits_eq hd1 (fun c hc => (ht c hc).2.1)
      simp [this, hd0]
  unfold matchCommonNumber
  rw [if_neg hne', hsign]
  simp only [List.drop_zero, hpre, Nat.zero_add, List.drop_left, h6]
  rw [show pre.length + int.length = (pre ++ int).length by simp, ← List.append_assoc, List.drop_left, h7]
  have h9 : float = false → exp = [] ∧ digits = [] := by
    rintro rfl
    rcases he with h | ⟨h, _⟩
    · exact h
    · cases h
  have d1 : ∀ x, List.drop ((pre ++ int).length + point.length + frac.length) (pre ++ int ++ (point ++ (frac ++ x))) = x := by
    intro x
    rw [show (pre ++ int).length + point.length + frac.length = (pre ++ int ++ point ++ frac).length by simp; omega,
      show pre ++ int ++ (point ++ (frac ++ x)) = pre ++ int ++ point ++ frac ++ x by simp, List.drop_left]
  have d2 : List.drop ((pre ++ int).length + point.length + frac.length + exp.length + digits.length)
      (pre ++ int ++ (point ++ (frac ++ (exp ++ (digits ++ (suf ++ b)))))) = suf ++ b := by
    rw [show (pre ++ int).length + point.length + frac.length + exp.length + digits.length =
        (pre ++ int ++ point ++ frac ++ exp ++ digits).length by simp; omega,
      show pre ++ int ++ (point ++ (frac ++ (exp ++ (digits ++ (suf ++ b))))) =
        pre ++ int ++ point ++ frac ++ exp ++ digits ++ (suf ++ b) by simp, List.drop_left]
  dsimp only
  have hz : ¬ ((pre ++ int).length + point.length + frac.length = 0) := by
    rcases hil with h | ⟨_, h, _⟩
    · have := List.length_pos_iff.2 h
      rw [List.length_append]; omega
    · have := List.length_pos_iff.2 h
      omega
  rw [if_neg hz]
  have hE : (if float && decide ((pre ++ int).length + point.length + frac.length <
        (pre ++ int ++ (point ++ (frac ++ (exp ++ (digits ++ (suf ++ b)))))).length) then
      numExponent o (List.drop ((pre ++ int).length + point.length + frac.length)
        (pre ++ int ++ (point ++ (frac ++ (exp ++ (digits ++ (suf ++ b)))))))
      else (0, 0, false)) = (exp.length, digits.length, false) := by
    rw [d1]
    cases float with
    | false => obtain ⟨rfl, rfl⟩ := h9 rfl; rfl
    | true =>
      split
      · exact h8 rfl
      · rename_i hlt
        simp at hlt
        have h1 : exp.length = 0 := by omega
        have h2 : digits.length = 0 := by omega
        simp [h1, h2]
  rw [hE]
  dsimp only
  have hS : (if (pre ++ int).length + point.length + frac.length + exp.length + digits.length <
        (pre ++ int ++ (point ++ (frac ++ (exp ++ (digits ++ (suf ++ b)))))).length then
      numSuffix o (List.drop ((pre ++ int).length + point.length + frac.length + exp.length + digits.length)
        (pre ++ int ++ (point ++ (frac ++ (exp ++ (digits ++ (suf ++ b)))))))
      else 0) = suf.length := by
    rw [d2]
    split
    · rename_i hlt
      apply hs
      intro h0
      have : suf.length = 0 ∧ b.length = 0 := by
        have := congrArg List.length h0
        simp at this
        simp [this]
      simp at hlt
      omega
    · rename_i hlt
      simp at hlt
      omega
  rw [hS]
  rcases hil with h | ⟨h, h', _, h''⟩
  · have := List.length_pos_iff.2 h
    simp [h]
    omega
  · have := List.length_pos_iff.2 h'
    simp [h, h'']
    omega

/-! ## Tokens -/

/-- The emissions for parts of a text. -/
def partsEmit (i : Nat) : List (Bytes × HT) → List Emit
  | [] => []
  | (p, ty) :: ps => optEmit i p ty ++ partsEmit (i + p.length) ps

theorem partsEmit_token (i : Nat) (ps : List (Bytes × HT)) : (partsEmit i ps).map Emit.token = parts i ps := by
  induction ps generalizing i with
  | nil => rfl
  | cons x ps ih => simp [partsEmit, parts, optEmit_token, ih]

theorem partsEmit_append (i : Nat) (ps qs : List (Bytes × HT)) :
    partsEmit i (ps ++ qs) = partsEmit i ps ++ partsEmit (i + (ps.flatMap Prod.fst).length) qs := by
  induction ps generalizing i with
  | nil => simp [partsEmit]
  | cons x ps ih => simp [partsEmit, ih, Nat.add_assoc]

theorem digitsLoop_append {sep : UInt8} {s r : Bytes} {n : Nat} (hs : ∀ c ∈ s, c ≠ sep) :
    (HM.digitsLoop sep n (s ++ r) : HM σ Unit) = HM.digitsLoop sep (n + s.length) r := by
  induction s generalizing n with
  | nil => simp
  | cons c s ih =>
    rw [List.cons_append]
    conv => lhs; unfold HM.digitsLoop
    rw [if_neg (hs c (by simp)), ih fun x hx => hs x (by simp [hx])]
    simp [Nat.add_comm, Nat.add_left_comm]

theorem wp_digitsIgnore_iff {d r : Bytes} {env : HEnv} {i : Nat} {out : List Emit} {ext : σ} {Q : Unit → HS σ → Prop}
    (hl : i + (d ++ r).length = env.src.length) :
    wp (HM.digitsIgnoreSeparator d.length) Q env ⟨d ++ r, i, out, ext⟩ ↔
      Q () ⟨r, i + d.length, out ++ optEmit i d .number, ext⟩ := by
  unfold HM.digitsIgnoreSeparator
  rw [show (if d.length ≠ 0 then HM.emitAdv d.length .number else pure () : HM σ Unit) =
    HM.emitAdvIf d.length .number from rfl, wp_emitAdvIf_iff hl (by simp)]
  simp [optEmit]

/-- The digits contain no separator, and there are several groups only if there is a separator. -/
def Splits (sep : Option UInt8) (gs : List Bytes) : Prop :=
  (sep = some c!"_" ∨ gs.length ≤ 1) ∧ ∀ x, sep = some x → ∀ g ∈ gs, ∀ c ∈ g, c ≠ x

theorem wp_digitsLoop_iff {sep : UInt8} {gs : List Bytes} {r : Bytes} {env : HEnv} {i : Nat} {out : List Emit} {ext : σ}
    {Q : Unit → HS σ → Prop} (hs : Splits (some sep) gs) (hl : i + (joined gs ++ r).length = env.src.length) :
    wp (HM.digitsLoop sep 0 (joined gs)) Q env ⟨joined gs ++ r, i, out, ext⟩ ↔
      Q () ⟨r, i + (joined gs).length, out ++ partsEmit i (groups gs), ext⟩ := by
  induction gs generalizing i out with
  | nil => simp [HM.digitsLoop, joined, groups, partsEmit, HM.digitsIgnoreSeparator]
  | cons g gs ih =>
    have hg := hs.2 sep rfl g (by simp)
    rw [joined_cons] at hl ⊢
    rw [digitsLoop_append hg]
    by_cases hn : gs = []
    · subst hn
      simp only [if_true, List.append_nil, Nat.zero_add] at hl ⊢
      unfold HM.digitsLoop
      rw [wp_digitsIgnore_iff hl]
      simp [groups, partsEmit]
    · have hsep : sep = c!"_" := by
        rcases hs.1 with h | h
        · exact Option.some.inj h
        · cases gs <;> simp at h hn
      subst hsep
      simp only [hn, if_false, Nat.zero_add] at hl ⊢
      unfold HM.digitsLoop
      rw [if_pos rfl]
      simp only [wp_bind]
      rw [List.append_assoc, wp_digitsIgnore_iff (by simpa [Nat.add_assoc] using hl)]
      have hl' : i + g.length + 1 + (joined gs ++ r).length = env.src.length := by
        simp at hl ⊢; omega
      rw [List.cons_append, wp_emitAdv_iff (by simp at hl' ⊢; omega) (by simp) (by simp)]
      simp only [HS.emitted, List.drop_succ_cons, List.drop_zero]
      rw [ih ⟨.inl rfl, fun x hx g hg => hs.2 x hx g (by simp [hg])⟩ hl']
      obtain ⟨g', t, rfl⟩ := List.exists_cons_of_ne_nil hn
      simp [groups, partsEmit, optEmit, Nat.add_assoc, Nat.add_comm 1]

theorem wp_numberDigits_iff {sep : Option UInt8} {gs : List Bytes} {r : Bytes} {env : HEnv} {i : Nat} {out : List Emit} {ext : σ}
    {Q : Unit → HS σ → Prop} (h0 : sep ≠ some 0) (hs : Splits sep gs)
    (hl : i + (joined gs ++ r).length = env.src.length) :
    wp (HM.numberDigits (joined gs).length sep) Q env ⟨joined gs ++ r, i, out, ext⟩ ↔
      Q () ⟨r, i + (joined gs).length, out ++ partsEmit i (groups gs), ext⟩ := by
  unfold HM.numberDigits
  cases sep with
  | none =>
    have : gs.length ≤ 1 := by
      rcases hs.1 with h | h
      · cases h
      · exact h
    simp only
    rw [wp_digitsIgnore_iff hl]
    match gs, this with
    | [], _ => simp [groups, partsEmit, joined, optEmit]
    | [g], _ => simp [groups, partsEmit, joined]
  | some x =>
    simp only
    split
    · unfold HM.highlightDigits
      have : (x != 0) = true := by simpa using h0
      simp only [this, wp_bind, wp_hassert_true, wp_rem]
      have h2 : decide ((joined gs).length ≤ (joined gs ++ r).length) = true := by simp
      rw [h2, wp_hassert_true, List.take_left, wp_digitsLoop_iff hs hl]
    · rename_i h
      have h1 : joined gs = [] := List.length_eq_zero_iff.1 (by omega)
      have h2 : ∀ i, partsEmit i (groups gs) = [] := by
        intro i
        match gs, h1 with
        | [], _ => rfl
        | [g], h => simp [joined, groups] at h; simp [groups, partsEmit, optEmit, h]
        | g :: g' :: t, h => simp [joined, groups] at h
      simp [h1, h2]

theorem wp_optPart_iff {d r : Bytes} {env : HEnv} {i : Nat} {out : List Emit} {ext : σ} {ty : HT}
    {Q : Unit → HS σ → Prop} (hl : i + (d ++ r).length = env.src.length) :
    wp (HM.emitAdvIf d.length ty) Q env ⟨d ++ r, i, out, ext⟩ ↔
      Q () ⟨r, i + d.length, out ++ optEmit i d ty, ext⟩ := by
  rw [wp_emitAdvIf_iff hl (by simp)]
  simp [optEmit]

theorem wp_highlightNumber_iff {n : Written} {b : Bytes} {env : HEnv} {sep : Option UInt8} {i : Nat} {out : List Emit}
    {ext : σ} {Q : Unit → HS σ → Prop} (hl : i + (n.text ++ b).length = env.src.length) (h0 : sep ≠ some 0)
    (h1 : Splits sep n.int) (h2 : Splits sep n.frac) (h3 : Splits sep [n.digits]) :
    wp (HM.highlightNumber n.result sep) Q env ⟨n.text ++ b, i, out, ext⟩ ↔
      Q () ⟨b, i + n.text.length, out ++ partsEmit i n.parts, ext⟩ := by
  obtain ⟨pre, int, point, frac, exp, digits, suf⟩ := n
  have e : Written.text ⟨pre, int, point, frac, exp, digits, suf⟩ ++ b =
      pre ++ (joined int ++ (point ++ (joined frac ++ (exp ++ (joined [digits] ++ (suf ++ b)))))) := by
    simp [Written.text, Written.parts, joined, groups]
  have hlen : (Written.text ⟨pre, int, point, frac, exp, digits, suf⟩).length = pre.length + (joined int).length + point.length +
      (joined frac).length + exp.length + (joined [digits]).length + suf.length := by
    have := congrArg List.length e
    simp at this
    omega
  have hd : digits.length = (joined [digits]).length := by simp [joined, groups]
  rw [e] at hl ⊢
  unfold Spec.Written.result
  simp only [hlen, hd]
  unfold HM.highlightNumber
  simp only [Bool.false_eq_true, if_false, Nat.zero_add, wp_bind]
  simp only [List.length_append] at hl
  rw [wp_optPart_iff (by simp; omega), wp_numberDigits_iff h0 h1 (by simp; omega),
    wp_optPart_iff (by simp; omega), wp_numberDigits_iff h0 h2 (by simp; omega),
    wp_optPart_iff (by simp; omega), wp_numberDigits_iff h0 h3 (by simp; omega),
    wp_optPart_iff (by simp; omega)]
  simp [partsEmit, Written.parts, Nat.add_assoc, partsEmit_append, joined, groups]

end Ulight
