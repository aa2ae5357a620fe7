import Verif.Props.Program.JavaScriptTokens

/-!
# The numbers of JavaScript and TypeScript
-/

namespace Ulight.Js

open Spec Spec.JavaScript

variable {env : HEnv} {x y : Elem} {a b : Bytes} {ts : List Token} {m : Dialect}

/-- The options if all numbers without prefix were decimal. -/
def decimalOptions : NumberOptions := { numberOptions with defaultLeadingZeroBase := 10 }

theorem numPrefix_decimal {s : Bytes} (h : startsWith s b!"0" = false ∨ ∃ p ∈ numberOptions.prefixes, startsWith s p.str = true) :
    numPrefix numberOptions s = numPrefix decimalOptions s := by
  unfold numPrefix
  show (match numberOptions.prefixes.find? (fun p => startsWith s p.str) with | some _ => _ | none => _) =
    (match numberOptions.prefixes.find? (fun p => startsWith s p.str) with | some _ => _ | none => _)
  cases hf : numberOptions.prefixes.find? (fun p => startsWith s p.str) with
  | some p => rfl
  | none =>
    rcases h with h | ⟨p, h1, h2⟩
    · simp [h, numberOptions, decimalOptions]
    · rw [List.find?_eq_none] at hf
      exact absurd h2 (hf p h1)

theorem matchCommonNumber_decimal {s : Bytes}
    (h : startsWith s b!"0" = false ∨ ∃ p ∈ numberOptions.prefixes, startsWith s p.str = true) :
    matchCommonNumber s numberOptions = matchCommonNumber s decimalOptions := by
  have h0 : ∀ s, numSign numberOptions s = 0 := by intro s; simp [numSign, numberOptions]
  have h1 : ∀ s, numSign decimalOptions s = 0 := by intro s; simp [numSign, numberOptions, decimalOptions]
  unfold matchCommonNumber
  simp only [h0, h1, List.drop_zero, numPrefix_decimal h]
  rfl

theorem number_match {n : Written} {R : Radix} (hR : R ∈ radixes) (h : Written.In n R)
    (h0 : n.pre = [] → ∀ g, n.int.head? = some g → g.head? ≠ some c!"0") (h' : Boundary b) :
    matchNumber (n.text ++ b) = n.result ∧ Separated n true ∧ n.text.length ≠ 0 ∧
      ∃ c t, n.text ++ b = c :: t ∧ (isDigit c = true ∨ c = c!".") := by
  obtain ⟨h1, h2, h3, c, t, h4, h5⟩ := written_facts (o := decimalOptions) (Rs := radixes) (by decide +kernel) (.inl rfl) hR h h'
  have hsep : R.separated = true := by
    have : ∀ R ∈ radixes, R.separated = true := by decide +kernel
    exact this R hR
  have hfl : R.floats = [] := by
    have : ∀ R ∈ radixes, R.floats = [] := by decide +kernel
    exact this R hR
  rw [hsep] at h2
  have htext : n.text ++ b =
      n.pre ++ (joined n.int ++ (n.point ++ (joined n.frac ++ (n.exp ++ (n.digits ++ (n.suf ++ b)))))) := by
    simp [Written.text, Written.parts, joined]
  have key : matchCommonNumber (n.text ++ b) numberOptions = matchCommonNumber (n.text ++ b) decimalOptions := by
    apply matchCommonNumber_decimal
    by_cases hp : n.pre = []
    · left
      rw [htext, hp]
      rcases h.int with hi | ⟨h1, _, h2⟩
      · obtain ⟨g, gs, hg⟩ := List.exists_cons_of_ne_nil hi.1
        have := hi.2.1 g (by simp [hg])
        obtain ⟨c, t, hc⟩ := List.exists_cons_of_ne_nil this.1
        have h00 := h0 hp g (by simp [hg])
        rw [hg, joined_cons, hc]
        rw [hc] at h00
        simp [startsWith_cons_cons] at h00 ⊢
        exact fun h => h00 h.symm
      · rcases h.frac with ⟨_, h⟩ | ⟨_, h, _⟩
        · exact absurd h h2
        · rw [h1, h]; rfl
    · right
      have : ∀ R ∈ radixes, R.pre ≠ [] → ∃ p ∈ numberOptions.prefixes, p.str = R.pre := by decide +kernel
      obtain ⟨p, hp1, hp2⟩ := this R hR (h.pre ▸ hp)
      exact ⟨p, hp1, startsWith_iff.2 ⟨_, by rw [htext, hp2, h.pre]⟩⟩
  refine ⟨?_, h2, h3, c, t, h4, ?_⟩
  · unfold matchNumber
    rw [key, h1]
    have : ((n.result.suffix != 0) && n.result.isNonInteger) = false := by
      rcases h.suf with hs | hs
      · simp [Written.result, hs]
      · split at hs
        · rename_i hpe
          have hd : n.digits = [] := by
            rcases h.exp with h | ⟨⟨_, _, c, _, sign, _, h⟩, _⟩
            · exact h.2
            · rw [hpe.2] at h; cases h
          simp [Written.result, NumberResult.isNonInteger, hpe, hd]
        · rw [hfl] at hs; cases hs
    simp only [this]
    rfl
  · rcases h5 with h | ⟨_, h⟩
    · exact .inl h
    · exact .inr h

theorem number_reads' {n : Written} (h1 : matchNumber (n.text ++ b) = n.result) (h2 : Separated n true) (h3 : n.text.length ≠ 0) :
    Reads env expectNumber x n.text (parts 0 n.parts) b true .div := by
  have key : ∀ gs : List Bytes, (∀ g ∈ gs, ∀ c ∈ g, c ∈ digitsOf 16) → Splits (some c!"_") gs := by
    intro gs h1
    refine ⟨.inl rfl, ?_⟩
    rintro x hx g hg c hc
    cases hx
    exact no_underscore c (h1 g hg c hc)
  unfold expectNumber
  refine reads_rem ?_
  dsimp only
  rw [h1]
  refine reads_else (by simpa using h3) ?_
  refine Reads.bind_last (w := ()) (y := x) ?_ (reads_set reads_pure)
  refine reads_of (es := partsEmit 0 n.parts) (partsEmit_token ..).symm ?_
  intro i out hl
  rw [wp_highlightNumber_iff hl (by decide) (key _ fun g hg => h2.1 g (by simp [hg]))
    (key _ fun g hg => h2.1 g (by simp [hg])) (key _ fun g hg => h2.1 g (by simp at hg; simp [hg]))]
  simp [partsEmit_moved]

theorem number_fail (h : ∀ c, b.head? = some c → isDigit c = false ∧ (c = c!"." → (b.drop 1).head?.any isDigit = false) ∧ c ≠ c!"_") :
    Reads env expectNumber x [] [] b false x := by
  unfold expectNumber
  refine reads_rem ?_
  have : (matchNumber b).length = 0 := by
    cases b with
    | nil => rfl
    | cons c t =>
      obtain ⟨h1, h2, h3⟩ := h c rfl
      have h0 : c ≠ c!"0" := by rintro rfl; cases h1
      unfold matchNumber
      rw [matchCommonNumber_none' (by simp [numberOptions]) (by simp [numberOptions]) ?_ ?_ h0 (by simpa using h2) h3]
      · intro p hp
        have : ∀ p ∈ numberOptions.prefixes, p.str.head? = some c!"0" := by decide +kernel
        have := this p hp
        cases hs : p.str with
        | nil => simp [hs] at this
        | cons d u =>
          rw [hs] at this
          cases this
          simp [startsWith_cons_cons, Ne.symm h0]
      · revert h1
        have : ∀ c : UInt8, isDigit c = false → isDigitBase c 10 = false := by apply forall_byte; decide +kernel
        exact this c
  dsimp only
  exact reads_this (by simpa using this) reads_pure

/-! ## Numbers that begin with a zero -/

theorem heads {P : UInt8 → Prop} {u v : Bytes} (hu : ∀ c, u.head? = some c → P c) (hv : ∀ c, v.head? = some c → P c) :
    ∀ c, (u ++ v).head? = some c → P c := by
  cases u with
  | nil => exact hv
  | cons d t => exact hu

theorem joined_heads {P : UInt8 → Prop} {gs : List Bytes} (h : ∀ g ∈ gs, g ≠ [] ∧ ∀ c ∈ g, P c) :
    ∀ c, (joined gs).head? = some c → P c := by
  cases gs with
  | nil => simp
  | cons g gs =>
    obtain ⟨h1, h2⟩ := h g (by simp)
    obtain ⟨c, t, rfl⟩ := List.exists_cons_of_ne_nil h1
    rw [joined_cons]
    rintro d hd
    cases hd
    exact h2 c (by simp)

theorem octalDigit (c : UInt8) : c ∈ digitsOf 8 → c ∉ b!"bBoOxX" ∧ isDigitBase c 8 = true ∧ c ≠ c!"_" ∧ c ∈ digitsOf 16 := by
  revert c; apply forall_byte; decide +kernel

theorem decimal_facts (c : UInt8) : c ∈ digitsOf 10 → c ∉ b!"bBoOxX" ∧ isDigitBase c 10 = true ∧ c ≠ c!"+" ∧ c ≠ c!"-" ∧ c ∈ digitsOf 16 := by
  revert c; apply forall_byte; decide +kernel

theorem boundary_facts {b : Bytes} (hb : Boundary b) : ∀ c, b.head? = some c →
    c ∉ b!"bBoOxXneE" ∧ isDigitBase c 8 = false ∧ isDigitBase c 10 = false ∧ c ≠ c!"_" ∧ c ≠ c!"." := by
  intro c hc
  obtain ⟨h1, h2, h3, h4, h5, _⟩ := Boundary.facts hb hc
  have : ∀ c : UInt8, isAlpha c = false → isDigit c = false → c ∉ b!"bBoOxXneE" ∧ isDigitBase c 8 = false ∧ isDigitBase c 10 = false := by
    apply forall_byte; decide +kernel
  exact ⟨(this c h1 h3).1, (this c h1 h3).2.1, (this c h1 h3).2.2, h4, h5⟩

theorem startsWith_head {s p : Bytes} {c : UInt8} (hp : p.head? = some c) (h : s.head? ≠ some c) : startsWith s p = false := by
  cases p with
  | nil => cases hp
  | cons d t => cases hp; exact startsWith_not h

theorem legacy_match {n : Written} (h : Legacy n) (hb : Boundary b) :
    matchNumber (n.text ++ b) = n.result ∧ Separated n true ∧ n.text.length ≠ 0 ∧ ∃ t, n.text ++ b = c!"0" :: t := by
  have hB := boundary_facts hb
  have htext : n.text ++ b =
      n.pre ++ (joined n.int ++ (n.point ++ (joined n.frac ++ (n.exp ++ (n.digits ++ (n.suf ++ b)))))) := by
    simp [Written.text, Written.parts, joined]
  obtain ⟨g, hg, hz⟩ := h.zero
  obtain ⟨gs, hint⟩ : ∃ gs, n.int = g :: gs := by
    cases hn : n.int with
    | nil => simp [hn] at hg
    | cons g' gs => rw [hn] at hg; cases hg; exact ⟨gs, rfl⟩
  obtain ⟨u, rfl⟩ : ∃ u, g = c!"0" :: u := by
    cases g with
    | nil => cases hz
    | cons d u => cases hz; exact ⟨u, rfl⟩
  have hfr : ∀ g ∈ n.frac, g ≠ [] ∧ ∀ c ∈ g, c ∈ digitsOf 8 := by
    rcases h.frac with ⟨_, h⟩ | ⟨_, _, h⟩
    · simp [h]
    · exact h
  have hin : ∀ g ∈ n.int, g ≠ [] ∧ ∀ c ∈ g, c ∈ digitsOf 8 := h.int.2
  have hdg : ∀ c ∈ n.digits, c ∈ digitsOf 10 := by
    rcases h.exp with ⟨_, h⟩ | ⟨_, h⟩
    · simp [h]
    · exact h.2
  have hsf : ∀ c, n.suf.head? = some c → c = c!"n" := by
    rcases h.suf with h | ⟨h, _⟩
    · simp [h]
    · simp [h]
  have hst : ∀ c, (n.suf ++ b).head? = some c → c ∉ b!"bBoOxXeE" ∧ isDigitBase c 8 = false ∧ isDigitBase c 10 = false ∧ c ≠ c!"_" ∧ c ≠ c!"." := by
    apply heads
    · intro c hc
      rw [hsf c hc]
      decide
    · intro c hc
      have := hB c hc
      refine ⟨fun hm => this.1 ?_, this.2⟩
      revert hm
      simp only [List.mem_cons, List.not_mem_nil, or_false]
      rintro (h | h | h | h | h | h | h | h) <;> simp [h]
  have hex : ∀ c, n.exp.head? = some c → c ∈ b!"eE" := by
    rcases h.exp with ⟨h, _⟩ | ⟨⟨c, hc, sign, _, h⟩, _⟩
    · simp [h]
    · rw [h]; rintro d hd; cases hd; exact hc
  obtain ⟨r, hr, hr'⟩ : ∃ r, n.text ++ b = c!"0" :: r ∧ ∀ c, r.head? = some c → c ∉ b!"bBoOxX" := by
    refine ⟨_, by rw [htext, h.pre, hint, joined_cons]; rfl, ?_⟩
    simp only [List.append_eq, List.append_assoc]
    refine heads (fun c hc => (octalDigit c ((hin _ (by rw [hint]; exact List.mem_cons_self)).2 c ?_)).1) ?_
    · exact List.mem_cons_of_mem _ (List.mem_of_mem_head? hc)
    refine heads (fun c hc => ?_) ?_
    · split at hc
      · cases hc
      · cases hc; decide
    refine heads (fun c hc => ?_) ?_
    · rcases h.frac with ⟨h, _⟩ | ⟨h, _⟩
      · rw [h] at hc; cases hc
      · rw [h] at hc; cases hc; decide
    refine heads (joined_heads fun g hg => ⟨(hfr g hg).1, fun c hc => (octalDigit c ((hfr g hg).2 c hc)).1⟩) ?_
    refine heads (fun c hc => ?_) ?_
    · have : ∀ c ∈ b!"eE", c ∉ b!"bBoOxX" := by decide +kernel
      exact this c (hex c hc)
    refine heads (fun c hc => (decimal_facts c (hdg c (List.mem_of_mem_head? hc))).1) ?_
    intro c hc
    have := (hst c hc).1
    intro hm
    apply this
    revert hm
    simp only [List.mem_cons, List.not_mem_nil, or_false]
    rintro (h | h | h | h | h | h) <;> simp [h]
  have hgr : ∀ gs : List Bytes, gs ≠ [] → (∀ g ∈ gs, g ≠ [] ∧ ∀ c ∈ g, c ∈ digitsOf 8) → DigitGroups 8 c!"_" gs :=
    fun gs h1 h2 => ⟨h1, fun g hg => ⟨(h2 g hg).1, fun c hc =>
      ⟨(octalDigit c ((h2 g hg).2 c hc)).2.1, (octalDigit c ((h2 g hg).2 c hc)).2.2.1⟩⟩, .inl rfl⟩
  have h1 : matchCommonNumber (n.text ++ b) numberOptions = n.result := by
    refine matchCommonNumber_eq (base := 8) (float := true) (by simp [numSign, numberOptions]) ?_
      (.inl (hgr _ h.int.1 hin)) ?_ ?_ ?_ ?_ ?_ (by decide) (by decide)
    · have : numberOptions.prefixes.find? (fun p => startsWith (n.text ++ b) p.str) = none := by
        rw [List.find?_eq_none]
        intro p hp
        rw [hr]
        have : ∀ p ∈ numberOptions.prefixes, ∃ c ∈ b!"bBoOxX", p.str = [c!"0", c] := by decide +kernel
        obtain ⟨c, hc, hs⟩ := this p hp
        rw [hs, startsWith_cons_cons, startsWith_not]
        · simp
        · intro h'
          exact hr' c h' hc
      unfold numPrefix
      rw [this, h.pre, hr]
      rfl
    · rcases h.frac with ⟨h1, h2⟩ | ⟨h1, h2, h3⟩
      · exact .inl ⟨h1, h2⟩
      · exact .inr ⟨rfl, h1, hgr _ h2 h3⟩
    · rcases h.exp with h | ⟨⟨c, hc, sign, hs, h⟩, h1, h2⟩
      · exact .inl h
      · refine .inr ⟨rfl, ?_, ⟨c, sign, h, ?_⟩, h1, fun d hd => (decimal_facts d (h2 d hd)).2.1⟩
        · obtain ⟨d, ds, hd⟩ := List.exists_cons_of_ne_nil h1
          have h3 := decimal_facts d (hdg d (by simp [hd]))
          have : ∀ c ∈ b!"eE", ∀ sign ∈ [b!"", b!"+", b!"-"], ∀ d : UInt8, d ≠ c!"+" → d ≠ c!"-" → ∀ t,
              numberOptions.exponentSeparators.find? (fun p => startsWith (c :: sign ++ d :: t) p) = some (c :: sign) := by
            intro c hc sign hs d h1 h2 t
            simp only [List.mem_cons, List.not_mem_nil, or_false] at hc hs
            have h3 : ((0x2B : UInt8) == d) = false := by simpa using Ne.symm h1
            have h4 : ((0x2D : UInt8) == d) = false := by simpa using Ne.symm h2
            rcases hc with rfl | rfl <;> rcases hs with rfl | rfl | rfl <;>
              simp [numberOptions, List.find?, h3, h4]
          have := this c hc sign hs d h3.2.2.1 h3.2.2.2.1 (ds ++ n.suf ++ b)
          rw [h, hd]
          simpa using this
        · have : ∀ c ∈ b!"eE", isDigitBase c 8 = false ∧ c ≠ numberOptions.digitSeparator ∧ c ≠ c!"." := by decide +kernel
          exact this c hc
    · intro _ _
      rw [List.find?_eq_none]
      intro p hp
      have : ∀ p ∈ numberOptions.exponentSeparators, ∃ c ∈ b!"eE", p.head? = some c := by decide +kernel
      obtain ⟨c, hc, hs⟩ := this p hp
      rw [startsWith_head hs]
      · simp
      · intro h'
        apply (hst c h').1
        revert hc
        simp only [List.mem_cons, List.not_mem_nil, or_false]
        rintro (h | h) <;> simp [h]
    · intro _
      rcases h.suf with h | ⟨h, _⟩
      · have : startsWith b b!"n" = false := by
          apply startsWith_not
          intro h'
          exact (hB _ h').1 (by decide)
        simp [numSuffix, numberOptions, h, List.find?, this]
      · simp [numSuffix, numberOptions, h]
    · intro c hc
      have := hst c hc
      exact ⟨this.2.1, this.2.2.1, fun _ => this.2.2.2.1, this.2.2.2.2⟩
  refine ⟨?_, ⟨?_, nofun⟩, ?_, r, hr⟩
  · unfold matchNumber
    rw [h1]
    have : ((n.result.suffix != 0) && n.result.isNonInteger) = false := by
      rcases h.suf with hs | ⟨_, h1, h2⟩
      · simp [Written.result, hs]
      · have hd : n.digits = [] := by
          rcases h.exp with h | ⟨⟨c, _, sign, _, h⟩, _⟩
          · exact h.2
          · rw [h2] at h; cases h
        simp [Written.result, NumberResult.isNonInteger, h1, h2, hd]
    simp only [this]
    rfl
  · intro g hg c hc
    simp only [List.mem_append, List.mem_singleton] at hg
    rcases hg with (hg | hg) | rfl
    · exact (octalDigit c ((hin g hg).2 c hc)).2.2.2
    · exact (octalDigit c ((hfr g hg).2 c hc)).2.2.2
    · exact (decimal_facts c (hdg c hc)).2.2.2.2
  · simp [Written.text, Written.parts, h.pre, hint]
    cases gs <;> simp [groups]

/-! ## Underscores -/

theorem sepLoop_run {w : Bytes} (prev : UInt8) (hw : ∀ c ∈ w, c = c!"_" ∨ DecDigit c) (hb : ∀ c, b.head? = some c → ¬ (c = c!"_" ∨ DecDigit c)) :
    ∃ p, sepLoop 10 c!"_" prev true (w ++ b) = (w.length, p, true) := by
  have hd : ∀ c : UInt8, isDigitBase c 10 = true ↔ DecDigit c := by
    unfold DecDigit
    apply forall_byte; decide +kernel
  induction w generalizing prev with
  | nil =>
    cases b with
    | nil => exact ⟨_, rfl⟩
    | cons c t =>
      have := hb c rfl
      refine ⟨c, ?_⟩
      have h2 : ¬ isDigitBase c 10 = true := fun h => this (.inr ((hd c).1 h))
      simp only [List.nil_append, sepLoop, if_neg fun h => this (.inl h), if_neg h2, List.length_nil]
  | cons c w ih =>
    obtain ⟨p, hp⟩ := ih c fun d hd => hw d (by simp [hd])
    rw [List.cons_append]
    unfold sepLoop
    by_cases hc : c = c!"_"
    · refine ⟨p, ?_⟩
      rw [if_pos hc]
      simp only [Bool.true_or, hp]
      rfl
    · refine ⟨p, ?_⟩
      have := (hd c).2 ((hw c (by simp)).resolve_left hc)
      simp only [if_neg hc, if_pos this, hp]
      rfl

theorem underscore_match {w : Bytes} (h : Longest (fun c => c = c!"_" ∨ DecDigit c) (w ++ b) w.length) (h0 : w.head? = some c!"_")
    (h' : NotFirst b!".eEn" b) : (matchNumber (w ++ b)).length = w.length ∧ (matchNumber (w ++ b)).erroneous = true := by
  obtain ⟨u, rfl⟩ : ∃ u, w = c!"_" :: u := by
    cases w with
    | nil => cases h0
    | cons d u => cases h0; exact ⟨u, rfl⟩
  have h1 : ∀ c ∈ u, c = c!"_" ∨ DecDigit c := fun c hc => h.1 c (by simp [hc])
  have h2 : ∀ c, b.head? = some c → ¬ (c = c!"_" ∨ DecDigit c) := by
    intro c hc
    refine h.2 c ?_
    rw [List.getElem?_append_right (by simp)]
    simpa [List.head?_eq_getElem?] using hc
  obtain ⟨p, hp⟩ := sepLoop_run c!"_" h1 h2
  have hi : matchSeparatedDigits (c!"_" :: u ++ b) 10 c!"_" = ⟨u.length + 1, true⟩ := by
    unfold matchSeparatedDigits
    rw [if_neg (by decide), List.cons_append]
    unfold sepLoop
    simp only [if_pos, Bool.false_or, decide_true, hp]
    rfl
  have hpre : numberOptions.prefixes.find? (fun p => startsWith (c!"_" :: u ++ b) p.str) = none := by
    rw [List.find?_eq_none]
    intro p hp
    have : ∀ p ∈ numberOptions.prefixes, p.str.head? = some c!"0" := by decide +kernel
    rw [startsWith_head (this p hp)]
    · simp
    · simp
  have hP : numPrefix numberOptions (c!"_" :: u ++ b) = (0, 10, true) := by
    unfold numPrefix
    rw [hpre]
    rfl
  have hb : ∀ c ∈ b!".eEn", b.head? ≠ some c := fun c hc h => h' c h hc
  have hf : numFraction numberOptions 10 0 (u.length + 1) true b = some (0, 0, false) := by
    unfold numFraction
    rw [startsWith_head (c := c!".") rfl (hb _ (by decide))]
    rfl
  have he : numExponent numberOptions b = (0, 0, false) := by
    unfold numExponent
    have : numberOptions.exponentSeparators.find? (fun p => startsWith b p) = none := by
      rw [List.find?_eq_none]
      intro p hp
      have : ∀ p ∈ numberOptions.exponentSeparators, ∃ c ∈ b!".eEn", p.head? = some c := by decide +kernel
      obtain ⟨c, hc, hs⟩ := this p hp
      rw [startsWith_head hs (hb c hc)]
      simp
    rw [this]
  have hs : numSuffix numberOptions b = 0 := by
    have : startsWith b b!"n" = false := startsWith_not (hb _ (by decide))
    simp [numSuffix, numberOptions, List.find?, this]
  have hd : (c!"_" :: u ++ b).drop (u.length + 1) = b := by simp
  have hsign : numSign numberOptions (c!"_" :: u ++ b) = 0 := by simp [numSign, numberOptions]
  unfold matchNumber
  have : matchCommonNumber (c!"_" :: u ++ b) numberOptions = { length := u.length + 1, integer := u.length + 1, erroneous := true } := by
    unfold matchCommonNumber
    rw [if_neg (by simp)]
    simp only [hsign, List.drop_zero, hP, show numberOptions.digitSeparator = c!"_" from rfl, hi, Nat.zero_add, hd, hf, Nat.add_zero]
    rw [if_neg (by omega), he]
    simp only [ite_self, Nat.add_zero, hd, hs]
    simp
  rw [this]
  simp

theorem underscore_reads {w : Bytes} (h : Longest (fun c => c = c!"_" ∨ DecDigit c) (w ++ b) w.length) (h0 : w.head? = some c!"_")
    (h' : NotFirst b!".eEn" b) : Reads env expectNumber x w [⟨0, w.length, .error⟩] b true .div := by
  obtain ⟨h1, h2⟩ := underscore_match h h0 h'
  have hne : w ≠ [] := by rintro rfl; cases h0
  unfold expectNumber
  refine reads_rem ?_
  dsimp only
  rw [h1]
  refine reads_else (by simpa using hne) ?_
  refine Reads.bind_last (w := ()) (y := x) ?_ (reads_set reads_pure)
  unfold HM.highlightNumber
  refine reads_this h2 ?_
  rw [h1]
  exact reads_emit rfl hne

end Ulight.Js
