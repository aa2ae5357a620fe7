import Verif.Props.Program.CowelWords

/-!
# C58: numbers and symbols of COWEL
-/

namespace Ulight.Cowel

open Spec Spec.Cowel Phrase

variable {α β : Type} {L : Nat} {P Q : Phrase} {v : α}

/-! ## Numbers -/

theorem numeric_unique {s : Bytes} {n m : Nat} (h : Numeric s n) (h' : Numeric s m) : n = m := by
  induction h generalizing m with
  | @sign e c t n he hc h ih =>
    cases h' with
    | sign _ _ h' => rw [ih h']
    | char hc' he' _ => exact absurd hc (he' he c rfl)
    | done h' => exact absurd (Or.inl (by simp at he; rcases he with rfl | rfl <;> simp [Letter])) (h' e rfl)
  | @char c t n hc he h ih =>
    cases h' with
    | sign he' hc' _ => exact absurd hc' (he he' _ rfl)
    | char _ _ h' => rw [ih h']
    | done h' => exact absurd hc (h' c rfl)
  | done h =>
    cases h' with
    | sign he _ _ => exact absurd (Or.inl (by simp at he; rcases he with rfl | rfl <;> simp [Letter])) (h _ rfl)
    | char hc _ _ => exact absurd hc (h _ rfl)
    | done => rfl

theorem reserved_eq {s : Bytes} {n : Nat} (h : Numeric s n) : matchReservedNumber s = n :=
  numeric_unique (matchReservedNumber_facts s).1 h

theorem digitBase_val {c : UInt8} {b : Nat} (hb : b = 2 ∨ b = 8 ∨ b = 16) (h : isDigitBase c b = true) : ∃ v, digitVal c = some v ∧ v < b := by
  have : (!isDigitBase c b || (digitVal c).any fun v => decide (v < b)) = true := by
    clear h
    rcases hb with rfl | rfl | rfl <;> (revert c; apply forall_byte; decide +kernel)
  rw [h] at this
  simp at this
  cases hv : digitVal c with
  | none => simp [hv] at this
  | some v => exact ⟨v, rfl, by simpa [hv] using this⟩

theorem digits_split (b : Nat) (s : Bytes) : ∃ a t, s = a ++ t ∧ matchDigits s b = a.length ∧ (∀ c ∈ a, isDigitBase c b = true) ∧
    ∀ c, t.head? = some c → isDigitBase c b = false := by
  obtain ⟨a, t, h1, h2, h3, h4⟩ := digits_spec numberOptions b s
  refine ⟨a, t, h1, ?_, ?_, ?_⟩
  · rw [h2]
    simp [matchSeparatedDigits, numberOptions]
  · intro c hc
    simpa [NumDigit, numberOptions] using h3 c hc
  · intro c hc
    simpa [NumDigit, numberOptions] using h4 c hc

theorem dec_of {c : UInt8} (h : isDigitBase c 10 = true) : DecDigit c := (isDigit_iff c).1 (by rwa [← isDigitBase_ten])

/-- The matcher of numbers accepts only numbers. -/
theorem number_sound {c : UInt8} {t : Bytes} (hc : c ≠ c!"-" ∧ c ≠ c!"e" ∧ c ≠ c!"E")
    (hl : (matchCommonNumber (c :: t) numberOptions).length = (c :: t).length)
    (he : (matchCommonNumber (c :: t) numberOptions).erroneous = false) : Number (c :: t) := by
  have hsep : ∀ s b, matchSeparatedDigits s b 0 = ⟨matchDigits s b, false⟩ := fun s b => by simp [matchSeparatedDigits]
  have hsign : numSign numberOptions (c :: t) = 0 := by simp [numSign, numberOptions, hc.1.symm]
  have hsuf : ∀ s, numSuffix numberOptions s = 0 := fun s => by simp [numSuffix, numberOptions]
  generalize hs : c :: t = s at *
  have h0 : s ≠ [] := by rw [← hs]; simp
  rw [matchCommonNumber, if_neg h0] at hl he
  simp only [hsign, List.drop_zero, Nat.zero_add, show numberOptions.digitSeparator = 0 from rfl, hsep, hsuf, ite_self, Nat.add_zero,
    show numberOptions.nonemptyInteger = false from rfl, Bool.false_and, Bool.false_or] at hl he
  cases hp : numberOptions.prefixes.find? (fun p => startsWith s p.str) with
  | some p =>
    have hpre : numPrefix numberOptions s = (p.str.length, p.base, p.floatingPoint) := by simp [numPrefix, hp]
    have hm := List.mem_of_find?_eq_some hp
    have hst := List.find?_some hp
    obtain ⟨r, rfl⟩ := startsWith_iff.1 hst
    have hq : p.floatingPoint = false ∧ (p.str, p.base) ∈ [(b!"0b", 2), (b!"0o", 8), (b!"0x", 16)] ∧ (p.base = 2 ∨ p.base = 8 ∨ p.base = 16) := by
      simp only [numberOptions, List.mem_cons, List.not_mem_nil, or_false] at hm
      rcases hm with rfl | rfl | rfl <;> simp
    rw [hpre] at hl he
    simp only [hq.1, List.drop_left, numFraction, Bool.false_and, Bool.false_eq_true, if_false, Nat.add_zero] at hl he
    obtain ⟨a, u, rfl, h1, h2, -⟩ := digits_split p.base r
    rw [h1] at hl he
    split at hl
    · simp only [List.length_append] at hl
      exact absurd (List.length_eq_zero_iff.1 (by simp only [List.length_append]; omega)) h0
    · rename_i hz
      rw [if_neg hz] at he
      simp only [List.length_append] at hl
      have hu : u = [] := List.length_eq_zero_iff.1 (by omega)
      subst hu
      rw [List.append_nil]
      refine .prefixed hq.2.1 ?_ fun c hc => digitBase_val hq.2.2 (h2 c hc)
      rintro rfl
      simp at he
  | none =>
    have hpre : numPrefix numberOptions s = (0, 10, true) := by
      simp [numPrefix, hp]
      simp [numberOptions]
    rw [hpre] at hl he
    simp only [List.drop_zero, Nat.zero_add] at hl he
    obtain ⟨i, u, hsi, h1, h2, h3⟩ := digits_split 10 s
    rw [h1] at hl he
    have hdr : s.drop i.length = u := by rw [hsi, List.drop_left]
    rw [hdr] at hl he
    -- the fraction
    cases hf : numFraction numberOptions 10 0 i.length true u with
    | none =>
      rw [hf] at hl
      simp at hl
      exact absurd hl.symm (by simpa using h0)
    | some f =>
      rw [hf] at hl he
      simp only at hl he
      obtain ⟨fs, w, hu, hfl, hfr, hi0⟩ : ∃ fs w, u = fs ++ w ∧ f.1 + f.2.1 = fs.length ∧ (fs = [] ∨ ∃ w, fs = b!"." ++ w ∧ ∀ c ∈ w, DecDigit c) ∧
          (i ≠ [] ∨ fs = [] ∨ 2 ≤ fs.length) := by
        unfold numFraction at hf
        split at hf
        · rename_i hd
          simp [startsWith_iff] at hd
          obtain ⟨r, rfl⟩ := hd
          simp only [show List.drop 1 (c!"." :: r) = r from rfl, show numberOptions.digitSeparator = 0 from rfl, hsep] at hf
          obtain ⟨a, w, rfl, e1, e2, e3⟩ := digits_split 10 r
          split at hf
          · cases hf
          · rename_i hn
            cases hf
            refine ⟨c!"." :: a, w, rfl, by simp [e1]; omega, Or.inr ⟨a, rfl, fun c hc => dec_of (e2 c hc)⟩, ?_⟩
            by_cases hi : i = []
            · subst hi
              right
              right
              cases a with
              | nil =>
                exfalso
                simp at hn
                cases w with
                | nil => simp at hn
                | cons x w =>
                  simp at hn
                  have := e3 x rfl
                  rw [isDigitBase_ten, hn] at this
                  cases this
              | cons x a => simp
            · exact Or.inl hi
        · cases hf
          exact ⟨[], u, rfl, rfl, Or.inl rfl, Or.inr (Or.inl rfl)⟩
      have hle : s.length = i.length + fs.length + w.length := by
        rw [hsi, hu]
        simp
        omega
      have hdr2 : s.drop (i.length + f.1 + f.2.1) = w := by
        rw [Nat.add_assoc, hfl, hsi, hu, ← List.append_assoc, List.drop_left' (by simp)]
      rw [hdr2] at hl he
      have hs0 := List.length_pos_iff.2 h0
      split at hl
      · simp only at hl
        omega
      rename_i hz
      rw [if_neg hz] at he
      have hi0' : i ≠ [] ∨ 2 ≤ fs.length := by
        rcases hi0 with h | h | h
        · exact Or.inl h
        · refine Or.inl ?_
          rintro rfl
          simp [h] at hfl
          simp at hz
          omega
        · exact Or.inr h
      rw [hsi, hu, ← List.append_assoc]
      refine .decimal hi0' (fun c hc => dec_of (h2 c hc)) hfr ?_
      by_cases hw : w = []
      · exact Or.inl hw
      have hw0 := List.length_pos_iff.2 hw
      right
      have hlt : (true && decide (i.length + f.1 + f.2.1 < s.length)) = true := by
        simp
        omega
      simp only [hlt, if_true] at hl he
      unfold numExponent at hl he
      cases hx : numberOptions.exponentSeparators.find? (fun p => startsWith w p) with
      | none =>
        simp only [hx] at hl
        omega
      | some x =>
        simp only [hx] at hl he
        have hm := List.mem_of_find?_eq_some hx
        obtain ⟨r, rfl⟩ := startsWith_iff.1 (List.find?_some hx)
        obtain ⟨a, z, rfl, e1, e2, -⟩ := digits_split 10 r
        rw [List.drop_left, e1] at hl he
        simp only [List.length_append] at hle hl
        have hz0 : z = [] := List.length_eq_zero_iff.1 (by omega)
        subst hz0
        refine ⟨x, a, by simp, ?_, ?_, fun c hc => dec_of (e2 c hc)⟩
        · have hall : ∀ x ∈ numberOptions.exponentSeparators, x ∈ numerals.exps := by decide +kernel
          exact hall x hm
        · rintro rfl
          simp at he

/-- The parts that the matcher of numbers finds. -/
theorem number_parts {w : Bytes} {ps : List (Bytes × HT)} (h : NumberOf w ps) : ∃ n : Written, n.text = w ∧ parts 0 n.parts = parts 0 ps ∧
    matchCommonNumber w numberOptions = n.result ∧ n.int.length ≤ 1 ∧ n.frac.length ≤ 1 ∧
    ∀ g ∈ n.int ++ n.frac ++ [n.digits], ∀ c ∈ g, isDigitBase c 16 = true := by
  cases h with
  | @prefixed p b d h d0 hd =>
    have hb : b = 2 ∨ b = 8 ∨ b = 16 := by
      simp at h
      grind
    have hm : matchDigits d b = d.length := by
      have := digits_prefix (w := d) (t := []) (b := b)
        (fun c hc => by obtain ⟨v, h1, h2⟩ := hd c hc; exact isDigitBase_of_val hb h1 h2) (by simp)
      simpa using this
    have hl := List.length_pos_iff.2 d0
    have hsep : ∀ s, matchSeparatedDigits s b 0 = ⟨matchDigits s b, false⟩ := fun s => by
      simp [matchSeparatedDigits]
    have hp : p ++ d ≠ [] ∧ numSign numberOptions (p ++ d) = 0 ∧
        numPrefix numberOptions (p ++ d) = (2, b, false) ∧ p.length = 2 := by
      simp only [List.mem_cons, Prod.mk.injEq, List.not_mem_nil, or_false] at h
      rcases h with ⟨rfl, rfl⟩ | ⟨rfl, rfl⟩ | ⟨rfl, rfl⟩ <;>
        simp [numSign, numPrefix, numberOptions]
    obtain ⟨h1, h2, h3, h4⟩ := hp
    have hdr : (p ++ d).drop 2 = d := List.drop_left' h4
    refine ⟨{ pre := p, int := [d] }, by simp [Written.text, Written.parts, groups], by simp [Written.parts, groups, parts, opt], ?_, by simp, by simp, ?_⟩
    · rw [matchCommonNumber, if_neg h1]
      simp only [h2, h3, List.drop_zero, Nat.zero_add, hdr, show numberOptions.digitSeparator = 0 from rfl, hsep, hm,
        numFraction, Bool.false_and, Bool.false_eq_true, if_false, List.length_append, h4, Nat.add_zero, Nat.lt_irrefl]
      rw [if_neg (by omega)]
      simp [show numberOptions.nonemptyInteger = false from rfl, Spec.Written.result, Written.text, Written.parts, groups, joined, h4]
      omega
    · have : ∀ c : UInt8, ∀ v, digitVal c = some v → v < 16 → isDigitBase c 16 = true := fun c v h1 h2 => isDigitBase_of_val (by simp) h1 h2
      intro g hg c hc
      simp at hg
      rcases hg with rfl | rfl
      · obtain ⟨v, h1, h2⟩ := hd c hc
        exact this c v h1 (by omega)
      · cases hc
  | @decimal i f x w i0 hi hf he =>
    refine ⟨{ int := [i], point := f.take 1, frac := [f.drop 1], exp := x, digits := w }, ?_, by simp [Written.parts, groups, parts, opt], ?_, by simp,
      by simp, ?_⟩
    · have := List.take_append_drop 1 f
      simp only [Written.text, Written.parts, groups, List.flatMap_cons, List.flatMap_nil, List.append_nil, List.nil_append, List.cons_append]
      rw [← List.append_assoc (f.take 1), this, List.append_assoc]
    · generalize hE : x ++ w = e
      have hD : ∀ {c}, DecDigit c → isDigitBase c 10 = true := fun {c} h => by
        rw [isDigitBase_ten]; exact (isDigit_iff c).2 h
      have hN : ∀ c : UInt8, c ∈ b!".eE" → isDigitBase c 10 = false := by
        apply forall_byte
        decide +kernel
      have heH : ∀ c, e[0]? = some c → c ∈ b!"eE" := by
        rcases he with ⟨rfl, rfl⟩ | ⟨hx, _, _⟩
        · simp [← hE]
        · rw [← hE]
          simp only [numerals, List.mem_cons, List.not_mem_nil, or_false] at hx
          rcases hx with rfl | rfl | rfl | rfl | rfl | rfl <;> simp
      have hfH : ∀ c, (f ++ e)[0]? = some c → c ∈ b!".eE" := by
        rcases hf with rfl | ⟨w, rfl, _⟩
        · intro c hc
          have := heH c (by simpa using hc)
          simp at this ⊢
          grind
        · simp
      have hsep : ∀ s, matchSeparatedDigits s 10 0 = ⟨matchDigits s 10, false⟩ := fun s => by
        simp [matchSeparatedDigits]
      have hi1 : matchDigits (i ++ (f ++ e)) 10 = i.length :=
        digits_prefix (fun c hc => hD (hi c hc)) fun c hc => hN c (hfH c hc)
      have hfirst : ∀ c, (i ++ (f ++ e))[0]? = some c → DecDigit c ∨ c ∈ b!".eE" := by
        intro c hc
        cases i with
        | nil => exact Or.inr (hfH c (by simpa using hc))
        | cons a i =>
          simp at hc
          subst hc
          exact Or.inl (hi _ (by simp))
      have hsecond : ∀ c, (i ++ (f ++ e))[0]? = some c!"0" → (i ++ (f ++ e))[1]? = some c → DecDigit c ∨ c ∈ b!".eE" := by
        intro c h0 hc
        match i with
        | [] =>
          have := hfH _ (by simpa using h0)
          simp at this
        | [a] => exact Or.inr (hfH c (by simpa using hc))
        | a :: b :: i =>
          simp at hc
          subst hc
          exact Or.inl (hi _ (by simp))
      generalize hs : i ++ (f ++ e) = s at *
      have hne : s ≠ [] := by
        intro h
        rw [h] at hs
        simp at hs
        simp [hs] at i0
      have hsign : numSign numberOptions s = 0 := by
        match s with
        | [] => simp at hne
        | c :: t =>
          have := hfirst c rfl
          have hc : c ≠ c!"-" := by
            rintro rfl
            simp [DecDigit] at this
          simp [numSign, numberOptions, eq_comm (b := c), hc]
      have hpre : numPrefix numberOptions s = (0, 10, true) := by
        have : ∀ x ∈ b!"box", startsWith s [c!"0", x] = false := by
          intro x hx
          match s with
          | [] => simp
          | [c] => simp
          | c :: d :: t =>
            by_cases h0 : c = c!"0"
            · subst h0
              have := hsecond d rfl rfl
              have hd : d ∉ b!"box" := by
                intro h
                simp at h
                rcases h with rfl | rfl | rfl <;> simp [DecDigit] at this
              simp
              rintro rfl
              exact hd hx
            · simp
              grind
        simp at this
        simp [numPrefix, numberOptions, this]
      rw [List.append_assoc, hs]
      rw [matchCommonNumber, if_neg hne]
      simp only [hsign, hpre, List.drop_zero, Nat.zero_add, show numberOptions.digitSeparator = 0 from rfl, hsep, hi1]
      have hdr : s.drop i.length = f ++ e := by rw [← hs, List.drop_left]
      have hfrac : numFraction numberOptions 10 0 i.length true (s.drop i.length) = some (if f = [] then 0 else 1, f.length - 1, false) := by
        rw [hdr]
        rcases hf with rfl | ⟨w, rfl, hw⟩
        · have : startsWith e b!"." = false := by
            cases e with
            | nil => simp
            | cons c e =>
              have := heH c rfl
              simp at this
              rcases this with rfl | rfl <;> simp
          simp [numFraction, this]
        · have hm : matchDigits (w ++ e) 10 = w.length := digits_prefix (fun c hc => hD (hw c hc))
            fun c hc => hN c (by have := heH c hc; simp at this ⊢; grind)
          simp [numFraction, hsep, hm, show numberOptions.digitSeparator = 0 from rfl, show numberOptions.nonemptyFraction = false from rfl]
          intro h0
          subst h0
          simp at i0
          cases w with
          | nil => simp at i0
          | cons a w => simpa using (isDigit_iff a).2 (hw a (by simp))
      rw [hfrac]
      have hl2 : (if f = [] then 0 else 1) + (f.length - 1) = f.length := by
        cases f <;> simp
        omega
      have hlen : s.length = i.length + f.length + e.length := by rw [← hs]; simp; omega
      simp only
      rw [Nat.add_assoc, hl2]
      have h0 : ¬ (i.length + f.length = 0) := by
        intro h
        rcases i0 with h' | h'
        · exact h' (List.length_eq_zero_iff.1 (by omega))
        · omega
      rw [if_neg h0]
      have hdr2 : s.drop (i.length + f.length) = e := by
        rw [← List.drop_drop, hdr, List.drop_left]
      have hexp : (if true && decide (i.length + f.length < s.length) then numExponent numberOptions (s.drop (i.length + f.length))
          else (0, 0, false)) = (x.length, w.length, false) := by
        rw [hdr2]
        rcases he with ⟨rfl, rfl⟩ | ⟨hx, w0, hw⟩
        · subst hE
          rw [if_neg (by simp at hlen; simp; omega)]
          simp
        · subst hE
          have hx0 : 0 < (x ++ w).length := by
            have := List.length_pos_iff.2 w0
            simp
            omega
          rw [if_pos (by simp; simp at hlen hx0; omega)]
          have hm : matchDigits w 10 = w.length := by
            simpa using digits_prefix (w := w) (t := []) (fun c hc => hD (hw c hc)) (by simp)
          have hsg : startsWith w b!"+" = false ∧ startsWith w b!"-" = false := by
            cases w with
            | nil => simp at w0
            | cons a w =>
              have := hw a (by simp)
              unfold DecDigit at this
              constructor <;> simp <;> rintro rfl <;> simp at this
          have hl0 : w.length ≠ 0 := by simpa using w0
          simp only [numerals, List.mem_cons, List.not_mem_nil, or_false] at hx
          rcases hx with rfl | rfl | rfl | rfl | rfl | rfl <;>
            simp [numExponent, numberOptions, hm, hsg, hl0]
      rw [hexp]
      simp only [show numberOptions.nonemptyInteger = false from rfl]
      have hsl : s.length = i.length + f.length + x.length + w.length := by
        rw [hlen, ← hE]
        simp
        omega
      rw [if_neg (by omega)]
      have hft : (f.take 1).length = (if f = [] then 0 else 1) ∧ (f.drop 1).length = f.length - 1 := by
        cases f <;> simp
      simp [Spec.Written.result, Written.text, Written.parts, groups, joined, hft.1] 
      omega
    · have h16 : ∀ c : UInt8, isDigit c = true → isDigitBase c 16 = true := by
        apply forall_byte
        decide +kernel
      have hd : ∀ g : Bytes, (∀ c ∈ g, DecDigit c) → ∀ c ∈ g, isDigitBase c 16 = true := fun g hg c hc => h16 c ((isDigit_iff c).2 (hg c hc))
      intro g hg
      simp only [List.cons_append, List.nil_append, List.mem_cons, List.not_mem_nil, or_false] at hg
      rcases hg with rfl | rfl | rfl
      · exact hd _ hi
      · refine hd _ ?_
        rcases hf with rfl | ⟨w, rfl, hw⟩
        · simp
        · simpa using hw
      · refine hd _ ?_
        rcases he with ⟨_, rfl⟩ | ⟨_, _, hw⟩
        · simp
        · exact hw

theorem reads_of_wp {σ : Type} {m : HM σ α} {x y : σ} {env : HEnv} {a b : Bytes} {es : List Emit}
    (h : ∀ i out, i + (a ++ b).length = env.src.length →
      wp m (fun w s => w = v ∧ s = ⟨b, i + a.length, out ++ es.map (Emit.moved i), y⟩) env ⟨a ++ b, i, out, x⟩) :
    Reads env m x a (es.map Emit.token) b v y := by
  refine ⟨es, rfl, fun i out hi => ?_⟩
  obtain ⟨_, _, h, rfl, rfl⟩ := h i out hi
  exact h

theorem reads_written {n : Written} {env : HEnv} {b : Bytes} (h4 : n.int.length ≤ 1) (h5 : n.frac.length ≤ 1) :
    Reads env (HM.highlightNumber n.result none : HM Unit Unit) () n.text (parts 0 n.parts) b () () := by
  rw [← partsEmit_token]
  refine reads_of_wp fun i out hi => ?_
  rw [wp_highlightNumber_iff (sep := none) hi (by simp) ⟨.inr h4, by simp⟩ ⟨.inr h5, by simp⟩ ⟨.inr (by simp), by simp⟩]
  exact ⟨rfl, by rw [partsEmit_moved]; rfl⟩

theorem numberOf_first {a : Bytes} {ps : List (Bytes × HT)} (h : NumberOf a ps) : ∃ c t, a = c :: t ∧ (DecDigit c ∨ c = c!".") := by
  cases h with
  | @prefixed p b w h w0 hw =>
    simp only [List.mem_cons, Prod.mk.injEq, List.not_mem_nil, or_false] at h
    rcases h with ⟨rfl, rfl⟩ | ⟨rfl, rfl⟩ | ⟨rfl, rfl⟩ <;> exact ⟨_, _, rfl, Or.inl (by unfold DecDigit; decide)⟩
  | @decimal i f x w i0 hi hf he =>
    cases i with
    | cons c i => exact ⟨c, _, rfl, Or.inl (hi c (by simp))⟩
    | nil =>
      rcases hf with rfl | ⟨w, rfl, hw⟩
      · simp at i0
      · exact ⟨_, _, rfl, Or.inr rfl⟩

theorem numeric_first {a b : Bytes} (h : Numeric (a ++ b) a.length) (h0 : a ≠ []) : ∃ c t, a = c :: t ∧ (Letter c ∨ DecDigit c ∨ c = c!".") := by
  obtain ⟨c, t, rfl⟩ := List.exists_cons_of_ne_nil h0
  refine ⟨c, t, rfl, ?_⟩
  rw [List.cons_append] at h
  generalize hn : (c :: t).length = n at h
  generalize t ++ b = s at h
  cases h with
  | sign he hc h =>
    left
    simp at he
    rcases he with rfl | rfl <;> simp [Letter]
  | char hc => exact hc
  | done => simp at hn

theorem numbers_first {a b : Bytes} {ts : List Token} (h : Numbers a ts b) : ∃ c t, a = c :: t ∧ (DecDigit c ∨ c = c!".") := by
  cases h with
  | number h h' => exact numberOf_first h'
  | bad h h0 h' =>
    obtain ⟨c, hc, hs⟩ := h0
    obtain ⟨d, t, rfl, hd⟩ := numeric_first h (by rintro rfl; cases hc)
    cases hc
    exact ⟨c, t, rfl, hd.resolve_left fun h => hs (Or.inl h)⟩

theorem numbers : R L expectNumber Numbers true := by
  intro env a ts b _ h
  have hfirst := numbers_first h
  have ha : a ≠ [] := by
    obtain ⟨c, t, rfl, -⟩ := hfirst
    simp
  cases h with
  | @number _ ps _ h h' =>
    refine reads_rem ?_
    rw [reserved_eq h]
    refine reads_else (by simpa using ha) ?_
    rw [List.take_left]
    obtain ⟨n, h1, h2, h3, h4, h5, h6⟩ := number_parts h'
    subst h1
    rw [h3, ← h2]
    exact reads_else (by simp [Spec.Written.result]) ((reads_written h4 h5).bind_last reads_pure)
  | bad h h0 h' =>
    refine reads_rem ?_
    rw [reserved_eq h]
    refine reads_else (by simpa using ha) ?_
    rw [List.take_left]
    refine reads_this ?_ ((reads_emit (by rfl) ha).bind_last reads_pure)
    refine Classical.byContradiction fun hn => h' ?_
    simp only [Bool.or_eq_true, decide_eq_true_eq, not_or, Bool.not_eq_true, Classical.not_not] at hn
    obtain ⟨c, t, rfl, hc⟩ := hfirst
    have hb : ∀ c : UInt8, (isDigit c = true ∨ c = c!".") → c ≠ c!"-" ∧ c ≠ c!"e" ∧ c ≠ c!"E" := by
      apply forall_byte
      decide +kernel
    exact number_sound (hb c (by rwa [isDigit_iff])) (by simpa using hn.1) hn.2

theorem no_number {env : HEnv} {b : Bytes} (h : ∀ c, b.head? = some c → ¬ (Letter c ∨ DecDigit c ∨ c = c!".")) :
    Reads env expectNumber () [] [] b false () := by
  refine reads_rem (reads_this ?_ reads_pure)
  exact reserved_eq (.done (by simpa [List.head?_eq_getElem?] using h))

/-! ## Symbols -/

theorem symbol_eq {a b : Bytes} {ty : HT} (h1 : LongestIn (symbols.map Prod.fst) (a ++ b) a.length) (h2 : (a, ty) ∈ symbols) :
    memberToken (a ++ b) = some (a, ty) := by
  rcases memberToken_facts (a ++ b) with ⟨w, ty', h3, h4, h5, h6, h7, h8⟩ | ⟨-, h3⟩
  · have hl := longestIn_unique h1 h8 (by simp) h7
    rw [← hl, List.take_left] at h5
    subst h5
    have hu : ∀ p ∈ symbols, ∀ q ∈ symbols, p.1 = q.1 → p = q := by decide +kernel
    rw [h3, hu _ h4 _ h2 rfl]
  · exact absurd ⟨[], b, by simp, rfl⟩ (h3 _ h2)

theorem no_symbol {b : Bytes} (h : NoSymbol b) : memberToken b = none := by
  rcases memberToken_facts b with ⟨w, ty', h3, h4, h5, h6, h7, h8⟩ | ⟨h3, -⟩
  · exact absurd ⟨b.drop w.length, by rw [← List.take_append_drop w.length b, h5]; simp⟩ (h _ h4)
  · exact h3

theorem symbol_first {a b : Bytes} {ts : List Token} (h : Symbol a ts b) : ∃ c t, a = c :: t ∧ c ∈ b!"=|&!<>+-*/%~" := by
  obtain ⟨ty, -, h, -⟩ := h
  have : ∀ p ∈ symbols, (p.1.head?.any fun c => c ∈ b!"=|&!<>+-*/%~") = true := by decide +kernel
  have := this _ h
  cases a with
  | nil => simp at this
  | cons c t => exact ⟨c, t, rfl, by simpa using this⟩

theorem soup_reads : R L soup Soup () := by
  rintro env a ts b - (⟨ty, h1, h2, rfl⟩ | ⟨hl, rfl, h⟩)
  · refine reads_rem ?_
    rw [symbol_eq h1 h2]
    obtain ⟨c, t, rfl, -⟩ := symbol_first (b := b) ⟨ty, h1, h2, rfl⟩
    exact reads_emit (by rfl) (by simp)
  · refine reads_rem ?_
    rw [no_symbol h, ← hl]
    exact reads_emit rfl (by rintro rfl; simp at hl)

end Ulight.Cowel
