import Verif.Props.Lang.CppMatch
import Verif.Props.Lang.Cowel

/-!
# C and C++ highlighting: what each token is
-/

namespace Ulight

open Utf8 Spec Spec.Cpp

namespace Cpp

/-! ## The text before a token -/

/-- The rules for one run. -/
abbrev R (cpp : Bool) (env : HEnv) : Rules := rules cpp env.opts.strict env.src

variable {cpp : Bool} {env : HEnv} {s s1 : HS Bool}

theorem prevByte_at {p : Nat} (hp : p ≤ env.src.length) (h0 : 0 < p) :
    prevByte env.src (env.src.drop p) = env.src[p - 1]? := by
  unfold prevByte
  rw [List.getLast?_eq_getElem?, List.getElem?_take]
  simp
  rw [if_pos (by omega)]
  congr 1
  omega

theorem prevByte_drop {n : Nat} (g : Good (R cpp env) env s) (hn : 0 < n) (hl : n ≤ s.rem.length) :
    prevByte env.src (s.rem.drop n) = s.rem[n - 1]? := by
  have l := g.len
  have r := g.rem
  rw [r, List.drop_drop, prevByte_at (by omega) (by omega), List.getElem?_drop]
  congr 1
  omega

/-! ## Whitespace and comments -/

theorem expectWhitespace_spec (g : Good (R cpp env) env s) :
    ExpectsAt (R cpp env) env s expectWhitespace (s.rem ≠ [] → ∃ c, s.rem[0]? = some c ∧ ¬ Space c) := by
  unfold ExpectsAt expectWhitespace
  rw [wp_bind, wp_rem]
  dsimp only
  have hL := length_if_zero_longest s.rem isWhitespace Space space_iff
  have hl := (length_if_le s.rem isWhitespace 0 (by omega)).2
  split
  · rename_i h
    rw [wp_pure]
    refine Or.inr ⟨rfl, rfl, fun hne => ?_⟩
    rw [h] at hL
    obtain ⟨c, t, e⟩ := List.exists_cons_of_ne_nil hne
    exact ⟨c, by simp [e], hL.2 c (by simp [e])⟩
  · rw [wp_bind]
    refine wp_step_modify g fun s1 g1 l1 e1 i1 x1 => ?_
    rw [wp_bind]
    refine wp_step_advance g1 (by rw [e1]; exact hl) (Gap.space (by rw [e1]; exact hL.1)) fun s2 g2 l2 e2 i2 x2 => ?_
    rw [wp_pure]
    exact Or.inl ⟨rfl, g2, by omega⟩

theorem expectLineComment_spec (g : Good (R cpp env) env s) :
    ExpectsAt (R cpp env) env s expectLineComment True := by
  unfold ExpectsAt expectLineComment
  rw [wp_bind, wp_rem]
  dsimp only
  rcases lineComment_facts s.rem with ⟨h, _⟩ | ⟨h1, h2, h3, h4⟩
  · rw [if_pos h, wp_pure]
    exact Or.inr ⟨rfl, rfl, trivial⟩
  · rw [if_neg (by omega), wp_bind]
    refine wp_step_emitAdv g (by omega) (by omega) (by simp) (Tok.commentDelim (by simp [h3])) fun s1 g1 l1 e1 i1 x1 => ?_
    rw [wp_bind]
    refine wp_step_emitAdvIf g1 (by rw [e1]; simp; omega) (by simp) (fun _ => Tok.lineComment (by rw [e1]; exact h4))
      fun s2 g2 l2 e2 i2 x2 => ?_
    rw [wp_bind]
    refine wp_step_set g2 fun s3 g3 l3 e3 i3 x3 => ?_
    rw [wp_pure]
    exact Or.inl ⟨rfl, g3, by omega⟩

theorem expectBlockComment_spec (g : Good (R cpp env) env s) :
    ExpectsAt (R cpp env) env s expectBlockComment True := by
  unfold ExpectsAt expectBlockComment
  rw [wp_bind, wp_rem]
  dsimp only
  split
  · rw [wp_pure]
    exact Or.inr ⟨rfl, rfl, trivial⟩
  · rename_i h
    rw [wp_bind]
    refine wp_blockComment (R := R cpp env) (fun t => Tok.commentDelim (by simp)) (fun t => Tok.commentDelim (by simp))
      (fun _ _ h => Tok.blockComment h) g h fun s1 g1 l1 e1 i1 x1 => ?_
    rw [wp_pure]
    exact Or.inl ⟨rfl, g1, by omega⟩

/-! ## Identifiers -/

theorem inMask_iff (cpp strict : Bool) (src : Source) : inMask cpp strict src = true ↔ Allowed cpp strict src := by
  cases cpp <;> cases strict <;> cases src <;> simp [inMask, Allowed]

theorem expectIdentifier_spec {fb : Bytes → HT} (g : Good (R cpp env) env s)
    (hf : ∀ n, Ident s.rem n → (∀ ty, ¬ Keyword cpp env.opts.strict (s.rem.take n) ty) →
      fb (s.rem.take n) ≠ .none ∧ Tok cpp env.opts.strict (prevByte env.src s.rem) s.rem n (fb (s.rem.take n))) :
    ExpectsAt (R cpp env) env s (expectIdentifier cpp fb) (∀ n, ¬ Ident s.rem n) := by
  unfold ExpectsAt expectIdentifier
  rw [wp_bind, wp_rem, wp_bind, wp_opts]
  dsimp only
  obtain ⟨hl, ⟨h0, hn⟩ | ⟨h0, hi⟩⟩ := Cpp.matchIdentifier_facts s.rem
  · rw [if_pos h0, wp_pure]
    exact Or.inr ⟨rfl, rfl, not_identifier hn⟩
  · rw [if_neg (by omega), wp_bind]
    have key : ∀ ty, ty = ((byCode (s.rem.take (matchIdentifier s.rem))).filter
        (fun e => inMask cpp env.opts.strict e.2)).elim (fb (s.rem.take (matchIdentifier s.rem))) Prod.fst →
        ty ≠ .none ∧ Tok cpp env.opts.strict (prevByte env.src s.rem) s.rem (matchIdentifier s.rem) ty := by
      intro ty hty
      rw [hty]
      clear hty
      generalize hb : (byCode (s.rem.take (matchIdentifier s.rem))).filter (fun e => inMask cpp env.opts.strict e.2) = o
      cases o with
      | some e =>
        rw [Option.filter_eq_some_iff, byCode_iff, inMask_iff] at hb
        exact ⟨tokens_some (_, e) ((words_iff _).2 hb.1), Tok.keyword hi ⟨e.2, hb.1, hb.2⟩⟩
      | none =>
        refine hf _ hi ?_
        rintro ty ⟨src, h1, h2⟩
        rw [← byCode_iff] at h1
        rw [Option.filter_eq_none_iff] at hb
        exact hb _ h1 ((inMask_iff _ _ _).2 h2)
    obtain ⟨k1, k2⟩ := key _ rfl
    refine wp_step_emitAdv g h0 hl k1 k2 fun s1 g1 l1 e1 i1 x1 => ?_
    rw [wp_bind]
    refine wp_step_set g1 fun s2 g2 l2 e2 i2 x2 => ?_
    rw [wp_pure]
    exact Or.inl ⟨rfl, g2, by omega⟩

theorem endsWith_iff (s t : Bytes) : endsWith s t = true ↔ ∃ w, s = w ++ t := by
  unfold endsWith
  rw [startsWith_iff]
  constructor
  · rintro ⟨w, h⟩
    exact ⟨w.reverse, by have := congrArg List.reverse h; simpa using this⟩
  · rintro ⟨w, rfl⟩
    exact ⟨w.reverse, by simp⟩

theorem usual_spec (g : Good (R cpp env) env s) :
    ExpectsAt (R cpp env) env s (expectIdentifier cpp usualFallback) (∀ n, ¬ Ident s.rem n) := by
  refine expectIdentifier_spec g fun n hi hk => ?_
  unfold usualFallback
  split
  · rename_i h
    exact ⟨by simp, Tok.typeName hi hk ((endsWith_iff _ _).1 h)⟩
  · rename_i h
    exact ⟨by simp, Tok.name hi hk (fun h' => h ((endsWith_iff _ _).2 h'))⟩

theorem suffix_spec (g : Good (R cpp env) env s)
    (hp : prevByte env.src s.rem = some c!"\"" ∨ prevByte env.src s.rem = some c!"'") :
    wp (consumeStringSuffix cpp) (fun _ s' => Moved (R cpp env) env s s') env s := by
  unfold consumeStringSuffix
  rw [wp_bind]
  refine wp_mono (expectIdentifier_spec g fun n hi hk => ⟨by simp, Tok.suffix hp hi hk⟩) ?_
  rintro _ s1 (⟨rfl, g1, h1⟩ | ⟨rfl, rfl, h⟩)
  · rw [wp_pure]; exact ⟨g1, by omega⟩
  · rw [wp_pure]; exact ⟨g, by omega⟩

/-! ## Numbers -/

/-- The digits that have not been highlighted yet. -/
def DigitsOf (env : HEnv) (s : HS Bool) (n : Nat) : Prop :=
  ∀ i c, i < n → s.rem[i]? = some c → Hex c ∨ (c ∈ b!"+-" ∧ ∃ e,
    (if i = 0 then prevByte env.src s.rem else s.rem[i - 1]?) = some e ∧ ExponentLetter e)

/-- The character before the rest of a number. -/
def before (env : HEnv) (s : HS Bool) (n : Nat) : Option UInt8 :=
  if n = 0 then prevByte env.src s.rem else s.rem[n - 1]?

/-- A sign is after the letter of an exponent. -/
def SignOk (env : HEnv) (s : HS Bool) (n : Nat) (pp : Bytes) : Prop :=
  ∀ d, pp[0]? = some d → d ∈ b!"+-" → ∃ e, before env s n = some e ∧ ExponentLetter e

theorem ppEnd_digit {rest : Bytes} (h : PpEnd rest) (c : UInt8) (hc : rest[0]? = some c) : ¬ DecDigit c := by
  intro hd
  obtain _ | ⟨a, t⟩ := rest
  · simp at hc
  simp at hc
  subst hc
  obtain ⟨h1, h2⟩ := nondigit_ascii (c := a) (Or.inr (Or.inl hd))
  exact h.char a.toNat [a] t rfl (firstChar_ascii h1 t) h2

theorem digit_or_sign (c : UInt8) (h : c ∈ b!"+-0123456789") : c.toNat < 0x80 ∧ (Hex c ∨ c ∈ b!"+-") := by
  unfold Hex
  revert h
  revert c
  apply forall_byte
  decide +kernel

theorem hex_ascii (c : UInt8) (h : isHexDigit c = true) : c.toNat < 0x80 ∧ Hex c := by
  unfold Hex
  revert h
  revert c
  apply forall_byte
  decide +kernel

theorem digit_listed (c : UInt8) (h : DecDigit c) : c ∈ b!"+-0123456789" := by
  unfold DecDigit at h
  revert h
  revert c
  apply forall_byte
  decide +kernel

theorem flush_digits {n : Nat} {Q : Unit → HS Bool → Prop} (g : Good (R cpp env) env s) (hn : n ≤ s.rem.length)
    (hd : DigitsOf env s n) (hc : ∀ c, s.rem[n]? = some c → ¬ DecDigit c)
    (k : ∀ s', Good (R cpp env) env s' → s'.idx + s'.rem.length = env.src.length → s'.rem = s.rem.drop n →
      s'.idx = s.idx + n → before env s' 0 = before env s n → Q () s') :
    wp (HM.emitAdvIf n .number) Q env s := by
  refine wp_step_emitAdvIf g hn (by simp) (fun _ => Tok.number ⟨hd, hc⟩) fun s1 g1 l1 e1 i1 x1 => ?_
  refine k s1 g1 l1 e1 i1 ?_
  unfold before
  rw [if_pos rfl]
  split
  · subst n; rw [e1]; simp
  · rw [e1, prevByte_drop g (by omega) hn]

theorem numberLoop_spec (hex : Bool) {rest : Bytes} (hr : PpEnd rest) (pp : Bytes) : ∀ (n : Nat) (s : HS Bool),
    Good (R cpp env) env s → n ≤ s.rem.length → s.rem.drop n = pp ++ rest → PpTail pp rest →
    DigitsOf env s n → SignOk env s n pp →
    wp (numberLoop hex n pp) (fun _ s' => Good (R cpp env) env s' ∧ s'.idx = s.idx + n + pp.length) env s := by
  induction pp with
  | nil =>
    intro n s g hn e ht hd hs
    unfold numberLoop
    refine flush_digits g hn hd ?_ fun s1 g1 l1 e1 i1 _ => ⟨g1, by simpa using i1⟩
    intro c hc
    refine ppEnd_digit hr c ?_
    simp at e
    rw [← e]
    simpa using hc
  | cons c pp ih =>
    intro n s g hn e ht hd hs
    have hat : s.rem[n]? = some c := by
      have : (s.rem.drop n)[0]? = some c := by rw [e]; rfl
      simpa using this
    have hlen : n < s.rem.length := by
      rw [List.getElem?_eq_some_iff] at hat
      exact hat.1
    -- a delimiter
    have delim : c.toNat < 0x80 → ¬ DecDigit c → Tok cpp env.opts.strict (prevByte env.src (s.rem.drop n)) (s.rem.drop n) 1 .number_delim →
        wp (do HM.emitAdvIf n .number; HM.emitAdv 1 .number_delim; numberLoop hex 0 pp)
          (fun _ s' => Good (R cpp env) env s' ∧ s'.idx = s.idx + n + (pp.length + 1)) env s := by
      intro ha hc hT
      rw [wp_bind]
      refine flush_digits g hn hd (by rw [hat]; simpa using hc) fun s1 g1 l1 e1 i1 b1 => ?_
      rw [wp_bind]
      refine wp_step_emitAdv g1 (by omega) (by rw [e1]; simp; omega) (by simp) (by rw [e1]; exact hT)
        fun s2 g2 l2 e2 i2 x2 => ?_
      obtain ⟨t1, t2⟩ := ht.next ha
      refine wp_mono (ih 0 s2 g2 (by omega) (by rw [e2, e1, List.drop_zero, e]; rfl) t1 ?_ ?_) ?_
      · intro i _ h; omega
      · intro d h1 h2
        refine ⟨c, ?_, t2 d h1 h2⟩
        unfold before
        rw [if_pos rfl, e2, prevByte_drop g1 (by omega) (by rw [e1]; simp; omega), e1, e]
        rfl
      · rintro _ s3 ⟨g3, h3⟩
        exact ⟨g3, by omega⟩
    -- one more digit
    have more : c.toNat < 0x80 → (Hex c ∨ c ∈ b!"+-") → wp (numberLoop hex (n + 1) pp)
          (fun _ s' => Good (R cpp env) env s' ∧ s'.idx = s.idx + n + (pp.length + 1)) env s := by
      intro ha hc
      obtain ⟨t1, t2⟩ := ht.next ha
      refine wp_mono (ih (n + 1) s g (by omega) (by rw [← List.drop_drop, e]; rfl) t1 ?_ ?_) ?_
      · intro i d hi h
        by_cases hin : i < n
        · exact hd i d hin h
        · obtain rfl : i = n := by omega
          rw [hat] at h
          cases h
          rcases hc with hc | hc
          · exact Or.inl hc
          · exact Or.inr ⟨hc, hs c rfl hc⟩
      · intro d h1 h2
        exact ⟨c, by simpa [before] using hat, t2 d h1 h2⟩
      · rintro _ s3 ⟨g3, h3⟩
        exact ⟨g3, by omega⟩
    -- the suffix
    have suffix : ¬ DecDigit c → c ∉ b!"'.+-" →
        wp (do HM.emitAdvIf n .number; HM.emitAdv (pp.length + 1) .number_decor)
          (fun _ s' => Good (R cpp env) env s' ∧ s'.idx = s.idx + n + (pp.length + 1)) env s := by
      intro hc hc'
      rw [wp_bind]
      refine flush_digits g hn hd (by rw [hat]; simpa using hc) fun s1 g1 l1 e1 i1 b1 => ?_
      have l1' : s1.rem.length = (pp.length + 1) + rest.length := by rw [e1, e]; simp; omega
      refine wp_step_emitAdv g1 (by omega) (by omega) (by simp) (Tok.numberSuffix ?_ ?_ ?_)
        fun s2 g2 l2 e2 i2 x2 => ⟨g2, by omega⟩
      · rw [e1, e]; exact ht.items (fun h => hc' (by simp at h ⊢; grind))
      · rw [e1, e, show pp.length + 1 = (c :: pp).length from rfl, List.drop_left]; exact hr
      · rw [e1, e]; intro d h; simp at h; subst h; exact ⟨hc, hc'⟩
    -- an exponent
    have exps : c ∈ b!"eEpP" → ∀ b : Bool, (b = true → pp[0]?.any startsExponent = true) →
        wp (do
          HM.emitAdvIf n .number
          if b = true then do
            HM.emitAdv 1 .number_delim
            numberLoop hex 0 pp
          else HM.emitAdv (pp.length + 1) .number_decor)
          (fun _ s' => Good (R cpp env) env s' ∧ s'.idx = s.idx + n + (pp.length + 1)) env s := by
      intro hc b hb
      have hc3 : c.toNat < 0x80 ∧ ¬ DecDigit c ∧ c ∉ b!"'.+-" := by
        unfold DecDigit
        simp at hc
        rcases hc with rfl | rfl | rfl | rfl <;> decide
      cases b with
      | false => exact suffix hc3.2.1 hc3.2.2
      | true =>
        refine delim hc3.1 hc3.2.1 (Tok.exponent ?_ ?_)
        · rw [e]
          simp at hc ⊢
          exact hc
        · have := hb rfl
          rw [Option.any_eq_true] at this
          obtain ⟨d, h1, h2⟩ := this
          refine ⟨d, ?_, ?_⟩
          · rw [e]
            obtain _ | ⟨x, pp⟩ := pp
            · simp at h1
            · simpa using h1
          · simp only [startsExponent, Bool.or_eq_true, decide_eq_true_eq, isDigit_iff] at h2
            simp
            grind
    unfold numberLoop
    simp only [List.length_cons]
    split
    · rename_i h
      subst h
      exact delim (by decide) (by unfold DecDigit; decide) (Tok.numberDelim (by rw [e]; simp))
    · split
      · rename_i h
        have : c.toNat < 0x80 ∧ Hex c := by
          simp only [Bool.and_eq_true, Bool.or_eq_true, decide_eq_true_eq] at h
          unfold Hex
          rcases h.1 with rfl | rfl <;> decide
        exact more this.1 (Or.inl this.2)
      · split
        · rename_i h
          refine exps ?_ _ (fun h => h)
          simp at h ⊢
          grind
        · split
          · rename_i h
            refine exps ?_ _ (fun h => by simp only [Bool.and_eq_true] at h; exact h.2)
            simp at h ⊢
            grind
          · split
            · rename_i h
              subst h
              exact delim (by decide) (by unfold DecDigit; decide) (Tok.numberDelim (by rw [e]; simp))
            · split
              · rename_i h
                have := digit_or_sign c h
                exact more this.1 this.2
              · split
                · rename_i h
                  simp only [Bool.and_eq_true] at h
                  have := hex_ascii c h.2
                  exact more this.1 (Or.inl this.2)
                · rename_i h1 _ _ _ h2 h3 _
                  refine suffix ?_ ?_
                  · intro hd
                    apply h3
                    exact digit_listed c hd
                  · simp at h3 ⊢
                    grind

theorem expectPpNumber_spec (g : Good (R cpp env) env s) :
    ExpectsAt (R cpp env) env s expectPpNumber (∀ c, s.rem[0]? = some c → ¬ DecDigit c) := by
  unfold ExpectsAt expectPpNumber
  rw [wp_bind, wp_rem]
  dsimp only
  rcases ppNumber_facts s.rem with ⟨h, h'⟩ | ⟨h0, hl, hi, he, c, hc, hc'⟩
  · rw [if_pos h, wp_pure]
    exact Or.inr ⟨rfl, rfl, h'⟩
  rw [if_neg (by omega), wp_bind, wp_index, wp_bind]
  generalize matchPpNumber s.rem = n at *
  have e : s.rem = s.rem.take n ++ s.rem.drop n := (List.take_append_drop n _).symm
  have hn : (s.rem.take n).length = n := by simp; omega
  have hp : PpTail (s.rem.take n) (s.rem.drop n) := Or.inl (by rw [← e, hn]; exact hi)
  have done : ∀ s' : HS Bool, Good (R cpp env) env s' → s'.idx = s.idx + n →
      wp (do
        let i ← HM.index
        HM.dassert (s.idx + n = i)
        HM.set false
        pure true) (fun b s' => (b = true ∧ Good (R cpp env) env s' ∧ s.idx < s'.idx) ∨
          (b = false ∧ s' = s ∧ ∀ c, s.rem[0]? = some c → ¬ DecDigit c)) env s' := by
    intro s1 g1 i1
    rw [wp_bind, wp_index, wp_bind]
    refine wp_dassert (by simp; omega) ?_
    rw [wp_bind]
    refine wp_step_set g1 fun s2 g2 l2 e2 i2 x2 => ?_
    rw [wp_pure]
    exact Or.inl ⟨rfl, g2, by omega⟩
  unfold highlightPpNumber
  rw [wp_bind, wp_hassert]
  refine ⟨by cases h : s.rem.take n with
    | nil => rw [h] at hn; simp at hn; omega
    | cons _ _ => rfl, ?_⟩
  dsimp only
  split
  · rename_i hx
    have hw : ∃ w ∈ [b!"0x", b!"0X", b!"0b", b!"0B"], startsWith (s.rem.take n) w = true := by
      simp only [Bool.or_eq_true] at hx
      rcases hx with (hx | hx) | hx | hx
      · exact ⟨_, by simp, hx⟩
      · exact ⟨_, by simp, hx⟩
      · exact ⟨_, by simp, hx⟩
      · exact ⟨_, by simp, hx⟩
    obtain ⟨w, hw, hx'⟩ := hw
    obtain ⟨t, et⟩ := startsWith_iff.1 hx'
    have hw2 : ∃ x, w = [c!"0", x] ∧ x.toNat < 0x80 ∧ x ∉ b!"eEpP" := by
      simp at hw
      rcases hw with rfl | rfl | rfl | rfl <;> exact ⟨_, rfl, by decide, by decide⟩
    obtain ⟨x, rfl, hx1, hx2⟩ := hw2
    have h2 : 2 ≤ n := by
      rw [← hn, et]; simp
    rw [wp_bind]
    refine wp_step_emitAdv g (by omega) (by omega) (by simp) (Tok.base ?_) fun s1 g1 l1 e1 i1 x1 => ?_
    · rw [e, et]; simpa using hw
    rw [et] at hp ⊢
    obtain ⟨t1, _⟩ := PpTail.next (c := c!"0") hp (by decide)
    obtain ⟨t2, t3⟩ := PpTail.next (c := x) (pp := t) t1 hx1
    have ht : t.length + 2 = n := by rw [← hn, et]; simp
    refine wp_mono (numberLoop_spec (rest := s.rem.drop n) _ he t 0 s1 g1 (by omega) ?_ t2 ?_ ?_) ?_
    · rw [e1, List.drop_zero]
      conv => lhs; rw [e, et]
      simp
    · intro i _ h; omega
    · intro d h1 h2
      exact absurd (t3 d h1 h2) hx2
    · rintro _ s2 ⟨g2, h2⟩
      exact done s2 g2 (by omega)
  · refine wp_mono (numberLoop_spec (rest := s.rem.drop n) _ he _ 0 s g (by omega) (by simp) hp ?_ ?_) ?_
    · intro i _ h; omega
    · intro d h1 h2
      exfalso
      have : s.rem[0]? = some d := by
        rw [List.getElem?_take, if_pos h0] at h1
        exact h1
      obtain rfl : c = d := Option.some_inj.1 (hc.symm.trans this)
      simp at h2
      rcases h2 with rfl | rfl <;> rcases hc' with h | h
      · simp [DecDigit] at h
      · simp at h
      · simp [DecDigit] at h
      · simp at h
    · rintro _ s2 ⟨g2, h2⟩
      exact done s2 g2 (by omega)

/-! ## Literals -/

/-- Every character of the text is whole. -/
def Sequences (src : Bytes) : Prop := ∀ i c, src[i]? = some c → i + sequenceLength c ≤ src.length ∧
  ∀ j b, i < j → j < i + sequenceLength c → src[j]? = some b → 0x80 ≤ b.toNat

theorem sequences_of_utf8 {src : Bytes} (h : IsUtf8 src) : Sequences src := by
  obtain ⟨cs, hcs, rfl⟩ := h
  induction cs with
  | nil => intro i c h; simp [utf8All] at h
  | cons c cs ih =>
    have he := enc_utf8 (hcs c (by simp))
    have ih := ih (fun x hx => hcs x (by simp [hx]))
    have e : utf8All (c :: cs) = utf8 c ++ utf8All cs := by simp [utf8All]
    rw [e]
    intro i b hb
    by_cases hi : i < (utf8 c).length
    · rw [List.getElem?_append_left hi] at hb
      by_cases h0 : i = 0
      · subst h0
        have : sequenceLength b = (utf8 c).length := by
          generalize utf8 c = p at *
          obtain _ | ⟨a, p⟩ := p
          · simp at hb
          simp at hb
          subst hb
          exact enc_seqLen he
        rw [this]
        refine ⟨by simp, fun j d h1 h2 h3 => ?_⟩
        rw [List.getElem?_append_left (by omega)] at h3
        exact (enc_tail he h1 h3).1
      · have := enc_tail he (by omega) hb
        have : sequenceLength b = 0 := by
          rw [sequenceLength_eq]
          grind
        rw [this]
        exact ⟨by simp; omega, fun j _ h1 h2 => by omega⟩
    · rw [List.getElem?_append_right (by omega)] at hb
      obtain ⟨h1, h2⟩ := ih _ _ hb
      refine ⟨by simp; omega, fun j d h3 h4 h5 => ?_⟩
      rw [List.getElem?_append_right (by omega)] at h5
      exact h2 _ d (by omega) (by omega) h5

theorem inLiteral_append {q : UInt8} {t : Bytes} {n m : Nat} (h : InLiteral q t n) (h' : InLiteral q (t.drop n) m) :
    InLiteral q t (n + m) := by
  induction h with
  | nil => simpa using h'
  | char h t ih => 
    rw [show ∀ n, n + 1 + m = (n + m) + 1 by omega]
    exact .char h (ih (by simpa using h'))
  | splice h t ih =>
    rename_i k n
    rw [show n + k + m = (n + m) + k by omega]
    exact .splice h (ih (by rw [List.drop_drop, Nat.add_comm]; exact h'))
  | blank h t ih =>
    rename_i n
    rw [show n + 2 + m = (n + m) + 2 by omega]
    exact .blank h (ih (by rw [List.drop_drop, Nat.add_comm]; exact h'))

theorem inLiteral_bytes {q : UInt8} (hq : q.toNat < 0x80) (t : Bytes) (n : Nat) (hn : n ≤ t.length)
    (h : ∀ j b, j < n → t[j]? = some b → 0x80 ≤ b.toNat) : InLiteral q t n := by
  induction n generalizing t with
  | zero => exact .nil
  | succ n ih =>
    obtain _ | ⟨a, t⟩ := t
    · simp at hn
    have ha := h 0 a (by omega) rfl
    refine .char ⟨?_, ?_, ?_, ?_⟩ (ih t (by simpa using hn) fun j b h1 h2 => h (j + 1) b (by omega) (by simpa using h2))
    · intro e; subst e; omega
    · intro e; subst e; simp at ha
    · intro e; subst e; simp at ha
    · intro e; subst e; simp at ha

/-- What is known while a literal is scanned: the first `chars` bytes after the text that has been
highlighted are inside of the literal. -/
structure Scanning (cpp : Bool) (env : HEnv) (q : UInt8) (s : HS Bool) (chars : Nat) (p : Nat) : Prop where
  good : GoodAt (R cpp env) env p s
  at_ : p + chars = s.idx
  text : InLiteral q (env.src.drop p) chars

theorem scanning_zero {q : UInt8} (g : Good (R cpp env) env s) : Scanning cpp env q s 0 s.idx := ⟨g, rfl, .nil⟩

theorem flushChars_spec {q : UInt8} {chars p : Nat} (hq : q = c!"\"" ∨ q = c!"'") (h : Scanning cpp env q s chars p)
    (hs : Stops q s.rem) {Q : Unit → HS Bool → Prop}
    (k : ∀ s', Good (R cpp env) env s' → s'.idx + s'.rem.length = env.src.length → s'.rem = s.rem →
      s'.idx = s.idx → Q () s') : wp (flushChars chars) Q env s := by
  obtain ⟨g, ha, ht⟩ := h
  have hl := g.len
  unfold flushChars
  split
  · rw [wp_bind, wp_index, wp_bind]
    refine wp_dassert (by simp; omega) ?_
    have : emitAnywhere (s.idx - chars) chars .string env s = HM.emit p chars .string .normal env s := by
      rw [show s.idx - chars = p by omega]
      have h1 : (chars != 0 && decide (p < env.src.length) && decide (p + chars ≤ env.src.length)) = true := by
        simp; omega
      have h2 : chars ≠ 0 := ‹_›
      simp only [emitAnywhere, HM.emit, h1, h2]
      simp
    unfold wp
    rw [this]
    refine wp_emitAt g (by omega) (by omega) (by simp) (Tok.string hq ht ?_) ?_
    · rw [List.drop_drop, ha, ← g.rem]; exact hs
    · intro s1 g1 e1 i1 x1
      have g1 := g1.good (by omega)
      exact k s1 g1 g1.len e1 i1
  · rename_i h0
    have h0 : chars = 0 := by omega
    subst h0
    rw [wp_pure]
    have g := g.good (by omega)
    exact k s g g.len rfl rfl

theorem wp_skip {n : Nat} {Q : Unit → HS Bool → Prop} (hn : n ≤ s.rem.length) :
    wp (skip n) Q env s ↔ wp (HM.advance n) Q env s := by
  have : skip n env s = HM.advance n env s := by simp [skip, HM.advance, hn]
  unfold wp
  rw [this]

theorem charStep_spec {q : UInt8} {chars p : Nat} (hq : q = c!"\"" ∨ q = c!"'") (hu : Sequences env.src)
    (h : Scanning cpp env q s chars p) :
    wp (charStep cpp q chars) (fun r s' => match r with
      | .inl b' => (s.idx ≤ s'.idx ∧ ∃ p, Scanning cpp env q s' b' p) ∧ s'.rem.length < s.rem.length
      | .inr _ => Moved (R cpp env) env s s') env s := by
  have hl := h.good.len
  have hq1 : q.toNat < 0x80 := by rcases hq with rfl | rfl <;> decide
  unfold charStep
  rw [wp_bind, wp_rem]
  split
  · rename_i hr
    rw [wp_bind]
    refine flushChars_spec hq h (Or.inl hr) fun s1 g1 l1 e1 i1 => ?_
    rw [wp_bind]
    refine wp_step_set g1 fun s2 g2 l2 e2 i2 x2 => ?_
    rw [wp_pure]
    exact ⟨g2, by omega⟩
  rename_i c t hr
  have hc : s.rem[0]? = some c := by rw [hr]; rfl
  have hl1 : 1 ≤ s.rem.length := by rw [hr]; simp
  split
  · rename_i hcq
    subst hcq
    rw [wp_bind]
    refine flushChars_spec hq h (Or.inr (Or.inl hc)) fun s1 g1 l1 e1 i1 => ?_
    rw [wp_bind]
    refine wp_step_emitAdv g1 (by omega) (by rw [e1]; exact hl1) (by simp) (Tok.quote ?_) fun s2 g2 l2 e2 i2 x2 => ?_
    · rw [e1, hr]
      rcases hq with rfl | rfl <;> simp
    rw [wp_bind]
    refine wp_mono (suffix_spec g2 ?_) ?_
    · rw [e2, prevByte_drop g1 (by omega) (by rw [e1]; exact hl1), e1]
      simp only [Nat.sub_self, hc]
      rcases hq with rfl | rfl <;> simp
    intro _ s3 m3
    rw [wp_bind]
    refine wp_step_set m3.good fun s4 g4 l4 e4 i4 x4 => ?_
    rw [wp_pure]
    exact ⟨g4, by have := m3.le; omega⟩
  rename_i hcq
  split
  · rename_i hb
    subst hb
    dsimp only
    have hE := escape_facts' hc
    generalize matchEscape s.rem = e at *
    cases hE with
    | alone ha he =>
      obtain ⟨a1, a2, a3⟩ := alone_facts
      rw [if_pos he, wp_bind]
      refine flushChars_spec hq h (Or.inr (Or.inr (Or.inr (Or.inr ⟨hc, by rw [ha]; exact ⟨a2, a3⟩⟩))))
        fun s1 g1 l1 e1 i1 => ?_
      rw [wp_bind]
      refine wp_step_emitAdv g1 (by omega) (by rw [e1]; exact hl1) (by simp)
        (Tok.badEscape (by rw [e1]; exact hc) ?_ ?_) fun s2 g2 l2 e2 i2 x2 => ?_
      · rw [e1, ha]; exact a1
      · rw [e1, ha]; exact ⟨a2, a3⟩
      rw [wp_pure]
      exact ⟨⟨by omega, _, scanning_zero g2⟩, by rw [e2, e1]; simp; omega⟩
    | splice hs hw =>
      have hk := splice_len hs
      rw [if_neg (by omega), if_pos hw, wp_bind]
      refine wp_advanceAt h.good hk.2 fun s1 g1 e1 i1 x1 => ?_
      rw [wp_pure]
      refine ⟨⟨by omega, p, g1, by have := h.at_; omega, inLiteral_append h.text ?_⟩, by rw [e1]; simp; omega⟩
      rw [List.drop_drop, h.at_, ← h.good.rem, ← Nat.zero_add e.length]
      exact .splice hs .nil
    | blank hb hw hk =>
      have h2 : 2 ≤ s.rem.length := by
        obtain ⟨_, ⟨d, hd, _⟩, _⟩ := hb
        rw [List.getElem?_eq_some_iff] at hd
        exact hd.1
      rw [if_neg (by omega), if_pos hw, wp_bind, hk]
      refine wp_advanceAt h.good h2 fun s1 g1 e1 i1 x1 => ?_
      rw [wp_pure]
      refine ⟨⟨by omega, p, g1, by have := h.at_; omega, inLiteral_append h.text ?_⟩, by rw [e1]; simp; omega⟩
      rw [List.drop_drop, h.at_, ← h.good.rem]
      exact .blank hb .nil
    | says hs hw hb hn =>
      have h2 := hs.lo
      rw [if_neg (by omega), if_neg (by simp [hw]), wp_bind]
      refine flushChars_spec hq h (Or.inr (Or.inr (Or.inr (Or.inr ⟨hc, hb, hn⟩)))) fun s1 g1 l1 e1 i1 => ?_
      rw [wp_bind]
      refine wp_step_emitAdv g1 (by omega) (by rw [e1]; exact hs.le) (by split <;> simp) ?_ fun s2 g2 l2 e2 i2 x2 => ?_
      · rw [e1]
        cases he : e.erroneous with
        | true => exact Tok.badEscape hc (hs.bad he) ⟨hb, hn⟩
        | false => exact Tok.escape (hs.good he).1 (hs.good he).2
      rw [wp_pure]
      exact ⟨⟨by omega, _, scanning_zero g2⟩, by rw [e2, e1]; simp; omega⟩
  rename_i hb
  split
  · rename_i hn
    rw [wp_bind]
    refine flushChars_spec hq h ?_ fun s1 g1 l1 e1 i1 => ?_
    · unfold Stops
      rw [hc]
      simp only [Bool.or_eq_true, decide_eq_true_eq] at hn
      rcases hn with rfl | rfl <;> simp
    rw [wp_bind]
    refine wp_step_set g1 fun s2 g2 l2 e2 i2 x2 => ?_
    rw [wp_pure]
    exact ⟨g2, by omega⟩
  rename_i hn
  dsimp only
  simp only [Bool.or_eq_true, decide_eq_true_eq, not_or] at hn
  have hsrc : env.src[s.idx]? = some c := by
    have := hc
    rw [h.good.rem] at this
    simpa using this
  obtain ⟨u1, u2⟩ := hu _ _ hsrc
  have hunits : ∀ u, u = (if sequenceLength c = 0 then 1 else sequenceLength c) → 0 < u ∧ u ≤ s.rem.length ∧
      InLiteral q s.rem u := by
    rintro u rfl
    split
    · refine ⟨by omega, hl1, ?_⟩
      rw [hr]
      exact .char ⟨hcq, hb, hn.2, hn.1⟩ .nil
    · refine ⟨by omega, by omega, ?_⟩
      have : sequenceLength c = sequenceLength c - 1 + 1 := by omega
      rw [this, hr]
      refine .char ⟨hcq, hb, hn.2, hn.1⟩ (inLiteral_bytes hq1 _ _ ?_ fun j b h1 h2 => ?_)
      · rw [hr] at hl; simp at hl; omega
      · refine u2 (s.idx + 1 + j) b (by omega) (by omega) ?_
        have e : t = env.src.drop (s.idx + 1) := by
          have := h.good.rem
          rw [hr] at this
          rw [← List.drop_drop, ← this]
          rfl
        rw [e] at h2
        simpa using h2
  obtain ⟨h1, h2, h3⟩ := hunits _ rfl
  generalize (if sequenceLength c = 0 then 1 else sequenceLength c) = u at *
  rw [wp_bind]
  rw [wp_skip h2]
  refine wp_advanceAt h.good h2 fun s1 g1 e1 i1 x1 => ?_
  rw [wp_pure]
  refine ⟨⟨by omega, p, g1, by have := h.at_; omega, inLiteral_append h.text ?_⟩, by rw [e1]; simp; omega⟩
  rw [List.drop_drop, h.at_, ← h.good.rem]
  exact h3

theorem consumeChars_spec {q : UInt8} (hq : q = c!"\"" ∨ q = c!"'") (hu : Sequences env.src)
    (g : Good (R cpp env) env s) :
    wp (consumeChars cpp q) (fun _ s' => Moved (R cpp env) env s s') env s := by
  unfold consumeChars
  rw [wp_bind, wp_rem]
  refine wp_loop (fun n s1 => s.idx ≤ s1.idx ∧ ∃ p, Scanning cpp env q s1 n p) (fun _ s => s.rem.length) ?_ _ 0 s
    ⟨by omega, _, scanning_zero g⟩ (by omega)
  rintro n s1 ⟨h1, p, hS⟩
  refine wp_mono (charStep_spec hq hu hS) ?_
  rintro (n' | _) s2 h
  · exact ⟨⟨by omega, h.1.2⟩, h.2⟩
  · exact ⟨h.good, by have := h.le; omega⟩

theorem identifier_end {c : UInt8} (hc : s.rem[matchIdentifier s.rem]? = some c) :
    matchIdentifier s.rem < s.rem.length ∧ (0 < matchIdentifier s.rem → Ident s.rem (matchIdentifier s.rem)) := by
  rw [List.getElem?_eq_some_iff] at hc
  obtain ⟨h, _⟩ := hc
  refine ⟨h, fun h0 => ?_⟩
  obtain ⟨hl, ⟨h0, hn⟩ | ⟨h0, hi⟩⟩ := Cpp.matchIdentifier_facts s.rem
  · omega
  · exact hi

theorem not_quote_identifier {c : UInt8} (hc : c ∈ b!"\"'") {t : Bytes} (h : t[0]? = some c) : matchIdentifier t = 0 := by
  obtain _ | ⟨a, t⟩ := t
  · simp at h
  simp at h
  subst h
  obtain ⟨hl, ⟨h0, hn⟩ | ⟨h0, hi⟩⟩ := Cpp.matchIdentifier_facts (a :: t)
  · exact h0
  · exfalso
    refine not_identifier (fun _ => (noFirst_ascii ?_).2 ?_) _ hi
    · simp at hc; rcases hc with rfl | rfl <;> decide
    · rw [← cppStart_iff]
      simp at hc; rcases hc with rfl | rfl <;> decide

theorem starts_of_head {c : UInt8} {t : Bytes} (h : t[0]? = some c) : startsWith t [c] = true := by
  obtain _ | ⟨a, t⟩ := t
  · simp at h
  · simp at h; simp [h]

theorem expectCharacterLiteral_spec (hu : Sequences env.src) (g : Good (R cpp env) env s) :
    ExpectsAt (R cpp env) env s (expectCharacterLiteral cpp) (s.rem[0]? ≠ some c!"'") := by
  unfold ExpectsAt expectCharacterLiteral
  rw [wp_bind, wp_rem]
  dsimp only
  split
  · rename_i h
    rw [wp_pure]
    refine Or.inr ⟨rfl, rfl, fun h' => h ?_⟩
    rw [not_quote_identifier (by simp) h']
    exact h'
  rename_i h
  have h : s.rem[matchIdentifier s.rem]? = some c!"'" := Classical.byContradiction h
  obtain ⟨hl, hi⟩ := identifier_end h
  rw [wp_bind]
  refine wp_step_emitAdvIf g (by omega) (by split <;> simp) (fun h0 => ?_) fun s1 g1 l1 e1 i1 x1 => ?_
  · split
    · rename_i hp
      exact Tok.encoding (hi h0) (by simp [encodings]; grind) (Or.inr h)
    · rename_i hp
      refine Tok.badCharacterPrefix (hi h0) h ?_
      simp [encodings]
      simp at hp
      refine ⟨⟨by omega, fun h => ?_⟩, hp⟩
      rw [h] at hl
      simp at hl
  have hq : s1.rem[0]? = some c!"'" := by rw [e1]; simpa using h
  have hl1 : 1 ≤ s1.rem.length := by rw [e1]; simp; omega
  have hs : s1.rem.take 1 = b!"'" := by rw [take_one_iff]; exact hq
  rw [wp_bind, wp_rem, wp_bind]
  refine wp_dassert (starts_of_head hq) ?_
  rw [wp_bind]
  refine wp_step_emitAdv g1 (by omega) hl1 (by simp) (Tok.quote (by rw [hs]; simp)) fun s2 g2 l2 e2 i2 x2 => ?_
  rw [wp_bind]
  refine wp_mono (consumeChars_spec (Or.inr rfl) hu g2) ?_
  intro _ s3 m3
  rw [wp_pure]
  exact Or.inl ⟨rfl, m3.good, by have := m3.le; omega⟩

theorem consumeRawString_spec (g : Good (R cpp env) env s) (hq : s.rem[0]? = some c!"\"") :
    wp (consumeRawString cpp) (fun _ s' => Moved (R cpp env) env s s') env s := by
  unfold consumeRawString
  rw [wp_bind, wp_rem, wp_bind]
  refine wp_dassert (starts_of_head hq) ?_
  rw [wp_bind]
  refine wp_step_set g fun s1 g1 l1 e1 i1 x1 => ?_
  dsimp only
  obtain ⟨t, ht⟩ : ∃ t, s.rem = c!"\"" :: t := by
    cases h : s.rem with
    | nil => simp [h] at hq
    | cons a t => simp [h] at hq; exact ⟨t, by simp [hq]⟩
  simp only [ht, List.drop_succ_cons, List.drop_zero, List.getElem?_cons_succ]
  have hL := length_if_zero_longest t isDChar DChar dchar_iff
  have hl := (length_if_le t isDChar 0 (by omega)).2
  generalize Ascii.length_if t isDChar = n at *
  have e1 : s1.rem = c!"\"" :: t := by rw [e1, ht]
  have hl1 : s1.rem.length = t.length + 1 := by rw [e1]; rfl
  have hd : (t.take n).length = n := by simp; omega
  split
  · rename_i hc
    have hn : n = t.length := by simp at hc; omega
    refine wp_step_emitAdv g1 (by omega) (by omega) (by simp) (Tok.badRaw hL.1 (Or.inl ?_))
      fun s2 g2 l2 e2 i2 x2 => ⟨g2, by omega⟩
    rw [e1, hn]
    simp
  rename_i c hc
  have hnl : n < t.length := by
    rw [List.getElem?_eq_some_iff] at hc
    exact hc.1
  have htake : s1.rem.take (n + 2) = b!"\"" ++ t.take n ++ [c] := by
    rw [e1, List.take_succ_cons, List.take_add_one, hc]
    simp
  split
  · rename_i hne
    refine wp_step_emitAdv g1 (by omega) (by omega) (by simp)
      (Tok.badRaw hL.1 (Or.inr ⟨c, htake, hL.2 c hc, hne⟩)) fun s2 g2 l2 e2 i2 x2 => ⟨g2, by omega⟩
  rename_i hne
  have hne : c = c!"(" := Classical.byContradiction hne
  subst hne
  rw [wp_bind]
  refine wp_step_emitAdv g1 (by omega) (by omega) (by simp) (Tok.rawOpen hL.1 htake) fun s2 g2 l2 e2 i2 x2 => ?_
  obtain ⟨k, b, hk, hkl, hup, hb1, hb2⟩ := rawLoop_spec (t.take n) (t.drop (n + 1)) 0
  simp only [hk, Nat.zero_add]
  have e2 : s2.rem = t.drop (n + 1) := by rw [e2, e1]; rfl
  rw [← e2] at hkl hup hb1
  rw [wp_bind]
  refine wp_step_emitAdvIf g2 hkl (by simp) (fun _ => Tok.rawText ?_ hL.1 hup) fun s3 g3 l3 e3 i3 x3 => ?_
  · rw [show s2.rem = s1.rem.drop (n + 2) by rw [e2, e1]; rfl, prevByte_drop g1 (by omega) (by omega), e1]
    simpa using hc
  rw [← e3] at hb1
  split
  · rename_i hb
    have hb := startsWith_facts (hb1 hb) _ rfl
    simp only [List.length_append, List.length_cons, List.length_nil, hd] at hb
    rw [show 0 + 1 + n + (0 + 1) = n + 2 by omega] at hb
    rw [wp_bind]
    refine wp_step_emitAdv g3 (by omega) hb.1 (by simp) (Tok.rawClose hL.1 hb.2) fun s4 g4 l4 e4 i4 x4 => ?_
    refine wp_mono (suffix_spec g4 (Or.inl ?_)) fun _ s5 m5 => ⟨m5.good, by have := m5.le; omega⟩
    rw [e4, prevByte_drop g3 (by omega) hb.1]
    have := congrArg (·[n + 1]?) hb.2
    simp only [List.getElem?_take] at this
    rw [if_pos (by omega)] at this
    rw [show n + 2 - 1 = n + 1 by omega, this, List.getElem?_append_right (by simp; omega)]
    simp [hd]
  · rw [wp_pure]
    exact ⟨g3, by omega⟩

theorem expectStringLiteral_spec (hu : Sequences env.src) (g : Good (R cpp env) env s) :
    ExpectsAt (R cpp env) env s (expectStringLiteral cpp) (s.rem[0]? ≠ some c!"\"") := by
  unfold ExpectsAt expectStringLiteral
  rw [wp_bind, wp_rem]
  dsimp only
  split
  · rename_i h
    rw [wp_pure]
    refine Or.inr ⟨rfl, rfl, fun h' => h ?_⟩
    rw [not_quote_identifier (by simp) h']
    exact h'
  rename_i h
  have h : s.rem[matchIdentifier s.rem]? = some c!"\"" := Classical.byContradiction h
  obtain ⟨hl, hi⟩ := identifier_end h
  rw [wp_bind]
  refine wp_step_emitAdvIf g (by omega) (by split <;> (try split) <;> simp) (fun h0 => ?_) fun s1 g1 l1 e1 i1 x1 => ?_
  · have hne : s.rem.take (matchIdentifier s.rem) ≠ [] := by
      intro h
      have := congrArg List.length h
      rw [List.length_take, List.length_nil] at this
      omega
    split
    · rename_i hp
      exact Tok.operator (hi h0) hp h
    split
    · rename_i hp
      simp only [isStringPrefix, decide_eq_true_eq, List.mem_cons, List.not_mem_nil, or_false] at hp
      have : s.rem.take (matchIdentifier s.rem) ∈ encodings ∨
          ∃ e ∈ encodings, s.rem.take (matchIdentifier s.rem) = e ++ b!"R" := by
        clear hne hi h
        generalize s.rem.take (matchIdentifier s.rem) = w at *
        rcases hp with rfl | rfl | rfl | rfl | rfl | rfl | rfl | rfl | rfl <;> decide
      rcases this with h' | ⟨e, he, h'⟩
      · exact Tok.encoding (hi h0) h' (Or.inl h)
      · exact Tok.rawEncoding (hi h0) he h' h
    · rename_i ho hp
      simp only [isStringPrefix, decide_eq_true_eq, List.mem_cons, List.not_mem_nil, or_false, not_or] at hp
      refine Tok.badStringPrefix (hi h0) h ⟨?_, ?_, ho⟩
      · simp only [encodings, List.mem_cons, List.not_mem_nil, or_false, not_or]
        grind
      · simp only [encodings, List.mem_cons, List.not_mem_nil, or_false]
        rintro e (rfl | rfl | rfl | rfl | rfl) <;> simp <;> grind
  have hq : s1.rem[0]? = some c!"\"" := by rw [e1]; simpa using h
  have hl1 : 1 ≤ s1.rem.length := by rw [e1]; simp; omega
  have hs : s1.rem.take 1 = b!"\"" := by rw [take_one_iff]; exact hq
  rw [wp_bind, wp_rem, wp_bind]
  refine wp_dassert (starts_of_head hq) ?_
  split
  · rename_i hR
    obtain ⟨w, hw⟩ := (endsWith_iff _ _).1 hR
    have hw := congrArg List.length hw
    rw [List.length_take, List.length_append] at hw
    simp only [List.length_cons, List.length_nil] at hw
    rw [wp_bind]
    refine wp_mono (consumeRawString_spec g1 hq) ?_
    intro _ s3 m3
    rw [wp_pure]
    exact Or.inl ⟨rfl, m3.good, by have := m3.le; omega⟩
  rw [wp_bind]
  refine wp_step_emitAdv g1 (by omega) hl1 (by simp) (Tok.quote (by rw [hs]; simp)) fun s2 g2 l2 e2 i2 x2 => ?_
  rw [wp_bind]
  refine wp_mono (consumeChars_spec (Or.inl rfl) hu g2) ?_
  intro _ s3 m3
  rw [wp_pure]
  exact Or.inl ⟨rfl, m3.good, by have := m3.le; omega⟩

/-! ## Symbols and directives -/

/-- Whether the symbol begins a directive. -/
def isPound (op : Bytes) : Bool := op = b!"#" || op = b!"%:"

theorem expectOp_spec (g : Good (R cpp env) env s)
    (hf : ∀ op, matchOp cpp s.rem = some op → s.ext = true → isPound op = false) :
    ExpectsAt (R cpp env) env s (expectOp cpp) (∀ w ∈ symbols cpp, startsWith s.rem w = false) := by
  unfold ExpectsAt expectOp
  rw [wp_bind, wp_rem]
  rcases op_facts cpp env.opts.strict (prevByte env.src s.rem) s.rem with ⟨w, e, hm, hb, h0, h1, h2, h3, _⟩ | ⟨hm, h⟩
  · have hf := hf w hm
    rw [hm]
    dsimp only
    rw [wp_bind, wp_get, wp_bind, wp_hassert]
    refine ⟨?_, ?_⟩
    · cases hx : s.ext with
      | false => rfl
      | true => have := hf hx; simp [isPound] at this; simpa using this
    rw [hb]
    dsimp only
    rw [wp_bind]
    refine wp_step_emitAdv g h1 h2 h0 h3 fun s1 g1 l1 e1 i1 x1 => ?_
    rw [wp_bind]
    refine wp_step_set g1 fun s2 g2 l2 e2 i2 x2 => ?_
    rw [wp_pure]
    exact Or.inl ⟨rfl, g2, by omega⟩
  · rw [hm]
    dsimp only
    rw [wp_pure]
    exact Or.inr ⟨rfl, rfl, h⟩

theorem skipSpace_spec {Q : Unit → HS Bool → Prop} (g : Good (R cpp env) env s)
    (k : ∀ n s', n ≤ s.rem.length → (∀ c ∈ s.rem.take n, Space c) → Good (R cpp env) env s' →
      s'.idx + s'.rem.length = env.src.length → s'.rem = s.rem.drop n → s'.idx = s.idx + n → Q () s') :
    wp (HM.advance (Ascii.length_if s.rem isWhitespace)) Q env s := by
  have hL := length_if_zero_longest s.rem isWhitespace Space space_iff
  have hl := (length_if_le s.rem isWhitespace 0 (by omega)).2
  exact wp_step_advance g hl (Gap.space hL.1) fun s1 g1 l1 e1 i1 x1 => k _ s1 hl hL.1 g1 l1 e1 i1

theorem header_longest (r : Bytes) :
    (r.findIdx? (fun c => c = c!">" || c = 0x0D || c = 0x0A) = none ∧
      Longest (fun c => c ≠ c!">" ∧ InLine c) r r.length) ∨
    ∃ k, r.findIdx? (fun c => c = c!">" || c = 0x0D || c = 0x0A) = some k ∧ k < r.length ∧
      Longest (fun c => c ≠ c!">" ∧ InLine c) r k := by
  cases h : r.findIdx? (fun c => c = c!">" || c = 0x0D || c = 0x0A) with
  | none =>
    rw [List.findIdx?_eq_none_iff] at h
    refine Or.inl ⟨rfl, ?_, by simp⟩
    intro c hc
    have := h c (by simpa using hc)
    unfold InLine
    simp at this
    grind
  | some k =>
    rw [List.findIdx?_eq_some_iff_getElem] at h
    obtain ⟨hk, h1, h2⟩ := h
    refine Or.inr ⟨k, rfl, hk, ?_, ?_⟩
    · intro c hc
      obtain ⟨j, hj, rfl⟩ := List.mem_take_iff_getElem.1 hc
      have := h2 j (by omega)
      unfold InLine
      simp at this
      grind
    · intro c hc
      rw [List.getElem?_eq_getElem hk] at hc
      simp at hc h1
      unfold InLine
      grind

theorem highlightHeader_spec (g : Good (R cpp env) env s) :
    wp highlightHeader (fun _ s' => Moved (R cpp env) env s s') env s := by
  unfold highlightHeader
  rw [wp_bind, wp_rem, wp_bind]
  refine skipSpace_spec g fun n s1 _ _ g1 l1 e1 i1 => ?_
  rw [wp_bind, wp_rem]
  split
  · rename_i h
    have hl : 1 ≤ s1.rem.length := (startsWith_facts h _ rfl).1
    have ht : s1.rem.take 1 = b!"<" := (startsWith_facts h _ rfl).2
    rw [wp_bind]
    refine wp_step_emitAdv g1 (by omega) hl (by simp) (Tok.quote (by rw [ht]; simp))
      fun s2 g2 l2 e2 i2 x2 => ?_
    have hprev : prevByte env.src s2.rem = some c!"<" := by
      rw [e2, prevByte_drop g1 (by omega) hl]
      exact take_one_iff.1 ht
    rw [wp_bind, wp_rem]
    rcases header_longest s2.rem with ⟨hk, hL⟩ | ⟨k, hk, hkl, hL⟩
    · rw [hk]
      dsimp only
      refine wp_step_emitAdvIf g2 (by omega) (by simp) (fun _ => Tok.header hprev hL) fun s3 g3 l3 e3 i3 x3 => ?_
      exact ⟨g3, by omega⟩
    · rw [hk]
      dsimp only
      rw [wp_bind]
      refine wp_step_emitAdvIf g2 (by omega) (by simp) (fun _ => Tok.header hprev hL) fun s3 g3 l3 e3 i3 x3 => ?_
      split
      · rename_i hc
        refine wp_step_emitAdv g3 (by omega) (by rw [e3]; simp; omega) (by simp) (Tok.quote ?_)
          fun s4 g4 l4 e4 i4 x4 => ⟨g4, by omega⟩
        have : s3.rem.take 1 = b!">" := by rw [take_one_iff, e3]; simpa using hc
        rw [this]
        simp
      · rw [wp_pure]
        exact ⟨g3, by omega⟩
  · rw [wp_pure]
    exact ⟨g1, by omega⟩

theorem expectDirective_spec (g : Good (R cpp env) env s) :
    ExpectsAt (R cpp env) env s (expectDirective cpp)
      (∀ op, matchOp cpp s.rem = some op → s.ext = true → isPound op = false) := by
  unfold ExpectsAt expectDirective
  rw [wp_bind, wp_get, wp_bind, wp_rem]
  rcases op_facts cpp env.opts.strict (prevByte env.src s.rem) s.rem with ⟨w, e, hm, hb, h0, h1, h2, h3, h4⟩ | ⟨hm, h⟩
  · rw [hm]
    dsimp only
    split
    · rename_i hn
      rw [wp_pure]
      refine Or.inr ⟨rfl, rfl, ?_⟩
      rintro op h hx
      cases h
      rw [hx] at hn
      simpa [isPound] using hn
    rename_i hn
    have hw : w = b!"#" ∨ w = b!"%:" := by
      simp only [Bool.or_eq_true, Bool.and_eq_true, decide_eq_true_eq, not_or, not_and] at hn
      by_cases h : w = b!"#"
      · exact Or.inl h
      · exact Or.inr (Classical.byContradiction fun h' => hn.2 h h')
    have h4 := h4 hw
    rw [wp_bind]
    refine wp_step_emitAdv g h1 h2 (by simp) (Tok.pound (by rw [h4]; simpa using hw)) fun s1 g1 l1 e1 i1 x1 => ?_
    rw [wp_bind, wp_rem, wp_bind]
    refine skipSpace_spec g1 fun n s2 hn hsp g2 l2 e2 i2 => ?_
    have hprev : ∃ c, prevByte env.src s2.rem = some c ∧ (Space c ∨ c ∈ b!"#:") := by
      by_cases h0 : n = 0
      · subst h0
        rw [e2, List.drop_zero, e1, prevByte_drop g h1 h2]
        have : s.rem[w.length - 1]? = w[w.length - 1]? := by
          conv => rhs; rw [← h4]
          rw [List.getElem?_take, if_pos (by simp; omega)]
          rw [h4]
        rw [this]
        rcases hw with rfl | rfl
        · exact ⟨c!"#", rfl, by simp⟩
        · exact ⟨c!":", rfl, by simp⟩
      · rw [e2, prevByte_drop g1 (by omega) hn]
        have hlt : n - 1 < s1.rem.length := by omega
        refine ⟨s1.rem[n - 1], by simp [hlt], Or.inl (hsp _ ?_)⟩
        exact List.mem_take_iff_getElem.2 ⟨n - 1, by omega, rfl⟩
    rw [wp_bind, wp_rem]
    obtain ⟨hl, ⟨hz, _⟩ | ⟨hz, hi⟩⟩ := Cpp.matchIdentifier_facts s2.rem
    · rw [if_pos hz, wp_pure]
      exact Or.inl ⟨rfl, g2, by omega⟩
    rw [if_neg (by omega), wp_bind]
    refine wp_step_emitAdv g2 hz hl (by simp) (Tok.directive hi hprev) fun s3 g3 l3 e3 i3 x3 => ?_
    split
    · rw [wp_bind]
      refine wp_mono (highlightHeader_spec g3) fun _ s4 m4 => ?_
      rw [wp_pure]
      exact Or.inl ⟨rfl, m4.good, by have := m4.le; omega⟩
    · rw [wp_pure]
      exact Or.inl ⟨rfl, g3, by omega⟩
  · rw [hm]
    dsimp only
    rw [wp_pure]
    exact Or.inr ⟨rfl, rfl, by simp⟩

/-! ## All of it -/

theorem expectNonWhitespace_spec (g : Good (R cpp env) env s) (h0 : ∃ c, s.rem[0]? = some c ∧ ¬ Space c)
    (hs : ∀ w ∈ symbols cpp, startsWith s.rem w = false) (hi : ∀ n, ¬ Ident s.rem n)
    (hc : ∀ c, s.rem[0]? = some c → ¬ DecDigit c ∧ c ∉ b!"\"'") :
    wp expectNonWhitespace (fun b s' => b = true ∧ Good (R cpp env) env s' ∧ s.idx < s'.idx) env s := by
  unfold expectNonWhitespace
  rw [wp_bind, wp_rem]
  dsimp only
  have hL := length_if_not_zero_longest s.rem isWhitespace (fun c => ¬ Space c) (fun c => by
    rw [← space_iff]; simp)
  have hl := (length_if_not_le s.rem isWhitespace 0 (by omega)).2
  split
  · rename_i hz
    rw [hz] at hL
    obtain ⟨c, h1, h2⟩ := h0
    exact absurd h2 (hL.2 c h1)
  · rw [wp_bind]
    refine wp_step_set g fun s1 g1 l1 e1 i1 x1 => ?_
    rw [wp_bind]
    rename_i hz
    rw [← e1] at hL hl hs hi hc hz ⊢
    refine wp_step_advance g1 hl (Gap.other hL ?_ hi hc) fun s2 g2 l2 e2 i2 x2 => ?_
    · intro w hw h
      have := hs w hw
      rw [← Bool.not_eq_true, startsWith_iff] at this
      exact this ⟨_, (List.take_append_drop w.length s1.rem).symm.trans (by rw [h])⟩
    rw [wp_pure]
    exact ⟨rfl, g2, by omega⟩

theorem step_spec (hu : Sequences env.src) (g : Good (R cpp env) env s) (hne : s.rem ≠ []) :
    wp (step cpp) (fun _ s' => Good (R cpp env) env s' ∧ s.idx < s'.idx) env s := by
  unfold step
  rw [wp_bind]
  have done : ∀ s' : HS Bool, Good (R cpp env) env s' ∧ s.idx < s'.idx → wp (HM.hassert true)
      (fun _ s' => Good (R cpp env) env s' ∧ s.idx < s'.idx) env s' := by
    intro s' h
    rw [wp_hassert]
    exact ⟨rfl, h⟩
  refine wp_step_or (wp_mono (expectWhitespace_spec g) ?_)
  rintro _ s1 (⟨rfl, g1, h1⟩ | ⟨rfl, rfl, h1⟩)
  · exact done s1 ⟨g1, h1⟩
  simp only [Bool.false_eq_true, if_false]
  refine wp_step_or (wp_mono (expectLineComment_spec g) ?_)
  rintro _ s1 (⟨rfl, g1, h1⟩ | ⟨rfl, rfl, _⟩)
  · exact done s1 ⟨g1, h1⟩
  simp only [Bool.false_eq_true, if_false]
  refine wp_step_or (wp_mono (expectBlockComment_spec g) ?_)
  rintro _ s1 (⟨rfl, g1, h1⟩ | ⟨rfl, rfl, _⟩)
  · exact done s1 ⟨g1, h1⟩
  simp only [Bool.false_eq_true, if_false]
  refine wp_step_or (wp_mono (expectDirective_spec g) ?_)
  rintro _ s1 (⟨rfl, g1, h1⟩ | ⟨rfl, rfl, h2⟩)
  · exact done s1 ⟨g1, h1⟩
  simp only [Bool.false_eq_true, if_false]
  refine wp_step_or (wp_mono (expectStringLiteral_spec hu g) ?_)
  rintro _ s1 (⟨rfl, g1, h1⟩ | ⟨rfl, rfl, h3⟩)
  · exact done s1 ⟨g1, h1⟩
  simp only [Bool.false_eq_true, if_false]
  refine wp_step_or (wp_mono (expectCharacterLiteral_spec hu g) ?_)
  rintro _ s1 (⟨rfl, g1, h1⟩ | ⟨rfl, rfl, h4⟩)
  · exact done s1 ⟨g1, h1⟩
  simp only [Bool.false_eq_true, if_false]
  refine wp_step_or (wp_mono (expectPpNumber_spec g) ?_)
  rintro _ s1 (⟨rfl, g1, h1⟩ | ⟨rfl, rfl, h5⟩)
  · exact done s1 ⟨g1, h1⟩
  simp only [Bool.false_eq_true, if_false]
  refine wp_step_or (wp_mono (usual_spec g) ?_)
  rintro _ s1 (⟨rfl, g1, h1⟩ | ⟨rfl, rfl, h6⟩)
  · exact done s1 ⟨g1, h1⟩
  simp only [Bool.false_eq_true, if_false]
  refine wp_step_or (wp_mono (expectOp_spec g h2) ?_)
  rintro _ s1 (⟨rfl, g1, h1⟩ | ⟨rfl, rfl, h7⟩)
  · exact done s1 ⟨g1, h1⟩
  simp only [Bool.false_eq_true, if_false]
  refine wp_mono (expectNonWhitespace_spec g (h1 hne) h7 h6 ?_) ?_
  · intro c hc
    refine ⟨h5 c hc, fun h => ?_⟩
    simp at h
    rcases h with rfl | rfl
    · exact h3 hc
    · exact h4 hc
  · rintro _ s2 ⟨rfl, g2, h2⟩
    exact done s2 ⟨g2, h2⟩

theorem highlight_tiles (cpp debug : Bool) (opts : Opts) (src : Bytes) (h : IsUtf8 src) :
    ∃ es, highlightFor cpp debug opts src = .ok (true, es) ∧
      Tiles (rules cpp opts.strict src) src src.length (es.map Emit.token) := by
  have := run_of_wp (m := run cpp) (ext := true) (R := rules cpp opts.strict src) (debug := debug) (opts := opts)
    (src := src) (P := fun b => b = true) ?_
  · obtain ⟨b, es, h1, rfl, h2⟩ := this
    exact ⟨es, h1, h2⟩
  · intro s g _ _ _
    have g : Good (R cpp ⟨debug, opts.seen, src⟩) ⟨debug, opts.seen, src⟩ s := g
    unfold run
    rw [wp_bind, wp_rem, wp_bind]
    refine wp_while_moved (R := R cpp ⟨debug, opts.seen, src⟩) (fun _ => True) ?_ g trivial (by omega) ?_
    · intro s1 g1 l1 i1 hne _
      exact wp_mono (step_spec (sequences_of_utf8 h) g1 hne) fun _ _ h => ⟨h.1, h.2, trivial⟩
    · intro s1 g1 l1 i1 he _
      rw [wp_pure]
      exact ⟨g1, he, rfl⟩

/-- Every token of C and C++ source code is what its type says, and so is the text without tokens. -/
theorem C51_cpp_tokens (debug : Bool) (opts : Opts) (src : Bytes) (h : IsUtf8 src) :
    (∃ es, highlight debug opts src = .ok (true, es) ∧
      Tiles (rules true opts.strict src) src src.length (es.map Emit.token)) ∧
    ∃ es, highlightC debug opts src = .ok (true, es) ∧
      Tiles (rules false opts.strict src) src src.length (es.map Emit.token) :=
  ⟨highlight_tiles true debug opts src h, highlight_tiles false debug opts src h⟩

/-- Words are looked up as the specification says. -/
theorem C33_cpp (w : Bytes) (e : HT × Source) : byCode w = some e ↔ (w, e) ∈ words := byCode_iff w e

/-- What is highlighted. -/
def tokensOf (src : Bytes) : Except Fault (List Token) :=
  (highlight true {} src).map (fun r => r.2.map Emit.token)

instance : DecidableEq (Except Fault (List Token)) := Html.instDecidableEqExceptFaultListToken

example : tokensOf b!"#include <a>\n// c\\\nd\nint main_t(u8\"x\\n\\z\"_s, L'a')" =
    .ok [⟨0, 1, .name_macro_delim⟩, ⟨1, 7, .name_macro⟩, ⟨9, 1, .string_delim⟩, ⟨10, 1, .string⟩,
      ⟨11, 1, .string_delim⟩, ⟨13, 2, .comment_delim⟩, ⟨15, 5, .comment⟩, ⟨21, 3, .keyword_type⟩, ⟨25, 6, .name_type⟩,
      ⟨31, 1, .symbol_parens⟩, ⟨32, 2, .string_decor⟩, ⟨34, 1, .string_delim⟩, ⟨35, 1, .string⟩,
      ⟨36, 2, .string_escape⟩, ⟨38, 2, .string_escape⟩, ⟨40, 1, .string_delim⟩, ⟨41, 2, .string_decor⟩,
      ⟨43, 1, .symbol_punc⟩, ⟨45, 1, .string_decor⟩, ⟨46, 1, .string_delim⟩, ⟨47, 1, .string⟩, ⟨48, 1, .string_delim⟩,
      ⟨49, 1, .symbol_parens⟩] := by decide +kernel

example : tokensOf b!"R\"x(a)\")x\" 0x1e+3p-4ull 1'000.5e-3f <:::> operator\"\"_k" =
    .ok [⟨0, 1, .string_decor⟩, ⟨1, 3, .string_delim⟩, ⟨4, 3, .string⟩, ⟨7, 3, .string_delim⟩, ⟨11, 2, .number_decor⟩,
      ⟨13, 4, .number⟩, ⟨17, 1, .number_delim⟩, ⟨18, 2, .number⟩, ⟨20, 3, .number_decor⟩, ⟨24, 1, .number⟩,
      ⟨25, 1, .number_delim⟩, ⟨26, 3, .number⟩, ⟨29, 1, .number_delim⟩, ⟨30, 1, .number⟩, ⟨31, 1, .number_delim⟩,
      ⟨32, 2, .number⟩, ⟨34, 1, .number_decor⟩, ⟨36, 2, .symbol_square⟩, ⟨38, 2, .symbol_op⟩, ⟨40, 1, .symbol_op⟩,
      ⟨42, 8, .keyword⟩, ⟨50, 1, .string_delim⟩, ⟨51, 1, .string_delim⟩, ⟨52, 2, .string_decor⟩] := by decide +kernel

/-- Text that is not highlighted as it should be.
* In ill-formed text, a string can end with a lead byte.  The token is longer than the text.
* `%>` is another spelling of `}`, but it is highlighted as a square bracket.
* After `#define`, another `#` begins a directive.
* A prefix that is not valid makes a raw string if it ends in `R`.
* Everything up to the next whitespace is skipped after `@`, with the beginning of a string in it. -/
theorem C51_differences :
    tokensOf [0x22, 0xC3] = .ok [⟨0, 1, .string_delim⟩, ⟨1, 2, .string⟩] ∧
    tokensOf b!"%>" = .ok [⟨0, 2, .symbol_square⟩] ∧
    tokensOf b!"#define # x" = .ok [⟨0, 1, .name_macro_delim⟩, ⟨1, 6, .name_macro⟩, ⟨8, 1, .name_macro_delim⟩,
      ⟨10, 1, .name_macro⟩] ∧
    tokensOf b!"XR\"a\"" = .ok [⟨0, 2, .error⟩, ⟨2, 3, .error⟩] ∧
    tokensOf b!"@\"x int \"" = .ok [⟨4, 3, .keyword_type⟩, ⟨8, 1, .string_delim⟩] := by
  refine ⟨by decide +kernel, by decide +kernel, by decide +kernel, by decide +kernel, by decide +kernel⟩

/-- `"\é"`: a character is cut. -/
theorem C31_cpp_splits : IsUtf8 [0x22, 0x5C, 0xC3, 0xA9, 0x22] ∧
    tokensOf [0x22, 0x5C, 0xC3, 0xA9, 0x22] = .ok [⟨0, 1, .string_delim⟩, ⟨1, 2, .error⟩, ⟨3, 1, .string⟩,
      ⟨4, 1, .string_delim⟩] ∧
    ¬ IsUtf8 (([0x22, 0x5C, 0xC3, 0xA9, 0x22].drop 3).take 1) := by
  exact ⟨⟨[0x22, 0x5C, 0xE9, 0x22], by simp [IsScalar], by decide +kernel⟩, by decide +kernel, not_isUtf8_one (by decide)⟩

end Cpp

end Ulight
