import Verif.Lang.Xml
import Verif.Spec.Lang.Xml
import Verif.Props.Lang.Html
import Verif.Hl.Parts

/-!
# C49: highlighting of XML
-/

namespace Ulight

open Spec Utf8

/-! ## Results that are certain -/

/-- `m` moves forward, or not at all, and its result satisfies `P`. -/
def Sure {σ α : Type} (R : Rules) (P : α → Prop) (m : HM σ α) : Prop :=
  ∀ env s, Good R env s → wp m (fun a s' => P a ∧ Moved R env s s') env s

namespace Sure

variable {σ α β : Type} {R : Rules} {P : α → Prop} {Q : β → Prop}

theorem pure {a : α} (h : P a) : Sure (σ := σ) R P (Pure.pure a) := by
  intro env s g
  rw [wp_pure]
  exact ⟨h, .refl g⟩

theorem bind {m : HM σ β} {f : β → HM σ α} (h : Sure R Q m) (hf : ∀ a, Q a → Sure R P (f a)) :
    Sure R P (m >>= f) := by
  intro env s g
  rw [wp_bind]
  refine wp_mono (h env s g) ?_
  rintro a s' ⟨ha, hm⟩
  refine wp_mono (hf a ha env s' hm.good) ?_
  rintro b s'' ⟨hb, hm'⟩
  exact ⟨hb, hm.trans hm'⟩

theorem any {m : HM σ α} (h : Sure R P m) : Sure R (fun _ => True) m :=
  fun env s g => wp_mono (h env s g) fun _ _ h => ⟨trivial, h.2⟩

theorem seq {m : HM σ β} {f : β → HM σ α} (h : Sure R (fun _ => True) m) (hf : ∀ a, Sure R P (f a)) :
    Sure R P (m >>= f) := h.bind fun a _ => hf a

theorem of_expects {m : HM σ Bool} (h : Expects R m) : Sure R (fun _ => True) m := by
  intro env s g
  refine wp_mono (h env s g) ?_
  rintro a s' (⟨_, g', h⟩ | ⟨_, rfl⟩)
  · exact ⟨trivial, g', by omega⟩
  · exact ⟨trivial, .refl g⟩

theorem of_expectsOr {m : HM σ Bool} {F : HS σ → Prop} (h : ExpectsOr R m F) : Sure R (fun _ => True) m := by
  intro env s g
  refine wp_mono (h env s g) ?_
  rintro a s' (⟨_, g', h⟩ | ⟨_, rfl, _⟩)
  · exact ⟨trivial, g', by omega⟩
  · exact ⟨trivial, .refl g⟩

/-- A loop whose iterations move forward. -/
theorem loop {body : β → HM σ (β ⊕ α)} {b : β}
    (h : ∀ b env s, Good R env s → wp (body b) (fun r s' => match r with
      | .inl _ => Good R env s' ∧ s.idx < s'.idx
      | .inr a => P a ∧ Moved R env s s') env s)
    {γ : Type} {f : α → HM σ γ} {T : γ → Prop} (hf : ∀ a, P a → Sure R T (f a)) :
    Sure R T (HM.rem >>= fun r => HM.loop (r.length + 1) body b >>= f) := by
  intro env s g
  rw [wp_bind, wp_rem, wp_bind]
  refine wp_loop_moved (R := R) (fun _ _ => True) ?_ g trivial (by omega)
  intro b s1 g1 l1 i1 _
  refine wp_mono (h b env s1 g1) ?_
  intro r s2 h2
  cases r with
  | inl b' => exact ⟨h2.1, h2.2, trivial⟩
  | inr a =>
    refine wp_mono (hf a h2.1 env s2 h2.2.good) ?_
    rintro c s3 ⟨h3, h4⟩
    exact ⟨h3, h4.good, by have := h2.2.le; have := h4.le; omega⟩

end Sure

/-- A condition that moves forward, and then anything that is certain. -/
theorem expectsOr_then {σ : Type} {R : Rules} {m a : HM σ Bool} {F : HS σ → Prop} (h : ExpectsOr R m F)
    (ha : Sure R (· = true) a) : ExpectsOr R (m >>= fun b => if b = true then a else Pure.pure false) F := by
  intro env s g
  rw [wp_bind]
  refine wp_mono (h env s g) ?_
  rintro _ s' (⟨rfl, g', h⟩ | ⟨rfl, rfl, hF⟩)
  · simp only [if_true]
    refine wp_mono (ha env s' g') ?_
    rintro _ s'' ⟨rfl, h'⟩
    exact Or.inl ⟨rfl, h'.good, by have := h'.le; omega⟩
  · simp only [Bool.false_eq_true, if_false]
    rw [wp_pure]
    exact Or.inr ⟨rfl, rfl, hF⟩

namespace Xml

open Spec.Xml

variable {env : HEnv} {s : HS Unit}

/-! ## Matching -/

theorem isSpace_iff (c : UInt8) : isSpace c = true ↔ Space c := by
  revert c
  unfold Space
  apply forall_byte
  decide +kernel

theorem nameStart_iff (c : Nat) : isNameStart c = true ↔ NameStart c := by
  have h : (∃ b : UInt8, b.toNat = c ∧ Letter b) ↔ (c < 0x80 ∧ isAlpha (UInt8.ofNat c) = true) := by
    constructor
    · rintro ⟨b, rfl, h⟩
      refine ⟨by unfold Letter at h; omega, ?_⟩
      rw [show UInt8.ofNat b.toNat = b by simp]
      exact (isAlpha_iff b).2 h
    · rintro ⟨h, h'⟩
      exact ⟨UInt8.ofNat c, by simp; omega, (isAlpha_iff _).1 h'⟩
  unfold isNameStart NameStart
  rw [h]
  simp
  grind

theorem name_iff (c : Nat) : isName c = true ↔ NameChar c := by
  have h : (∃ b : UInt8, b.toNat = c ∧ DecDigit b) ↔ (c < 0x80 ∧ isDigit (UInt8.ofNat c) = true) := by
    constructor
    · rintro ⟨b, rfl, h⟩
      refine ⟨by unfold DecDigit at h; omega, ?_⟩
      rw [show UInt8.ofNat b.toNat = b by simp]
      exact (isDigit_iff b).2 h
    · rintro ⟨h, h'⟩
      exact ⟨UInt8.ofNat c, by simp; omega, (isDigit_iff _).1 h'⟩
  have h3 : c = 0x3A → NameStart c := by
    rintro rfl
    exact Or.inr (Or.inl (by simp))
  unfold isName NameChar
  rw [h, ← nameStart_iff] at *
  simp
  grind

theorem decode_cont {c : UInt8} (h : c &&& 0xC0 = 0x80) (t : Bytes) : decodeOrReplacement (c :: t) = (0xFFFD, 1) := by
  have : sequenceLength c = 0 := by
    revert h
    revert c
    apply forall_byte
    decide +kernel
  simp [decodeOrReplacement, this, replacement]

theorem secondCont (a b : UInt8) (h : isValidSecond a b = true) : b &&& 0xC0 = 0x80 := by
  unfold isValidSecond at h
  grind

theorem validPrefix_cont (b0 : UInt8) (n i : Nat) (rest : Bytes) (k : Nat) (hk : k < validPrefix b0 i n rest - i) :
    ∃ c, rest[k]? = some c ∧ c &&& 0xC0 = 0x80 := by
  induction n generalizing i rest k with
  | zero => simp [validPrefix] at hk
  | succ n ih =>
    cases rest with
    | nil => simp [validPrefix] at hk
    | cons b rest =>
      rw [validPrefix] at hk
      have hb : b &&& 0xC0 = 0x80 ∧ k < validPrefix b0 (i + 1) n rest - i := by
        split at hk
        · split at hk
          · rename_i hv
            exact ⟨secondCont _ _ hv, hk⟩
          · omega
        · split at hk
          · rename_i hv
            exact ⟨by simpa using hv, hk⟩
          · omega
      cases k with
      | zero => exact ⟨b, rfl, hb.1⟩
      | succ k =>
        have := ih (i + 1) rest k (by omega)
        simpa using this

theorem decode_tail (s : Bytes) (j : Nat) (h0 : 0 < j) (hj : j < (decodeOrReplacement s).2) :
    ∃ c, s[j]? = some c ∧ c &&& 0xC0 = 0x80 := by
  cases s with
  | nil => simp [decodeOrReplacement] at hj
  | cons b0 rest =>
    obtain ⟨k, rfl⟩ : ∃ k, j = k + 1 := ⟨j - 1, by omega⟩
    rw [List.getElem?_cons_succ]
    apply validPrefix_cont b0 (sequenceLength b0 - 1) 1
    simp only [decodeOrReplacement] at hj
    split at hj
    · simp at hj
    · split at hj
      · rename_i h
        rw [h]
        simp only at hj
        omega
      · simp only at hj
        omega

theorem matchName_skip (s : Bytes) (n : Nat) (hn : n ≤ s.length)
    (h : ∀ j, j < n → isName (decodeOrReplacement (s.drop j)).1 = true) :
    matchName s = n + matchName (s.drop n) := by
  induction n generalizing s with
  | zero => simp
  | succ n ih =>
    cases s with
    | nil => simp at hn
    | cons c t =>
      have h0 := h 0 (by omega)
      rw [List.drop_zero] at h0
      rw [matchName, if_pos h0, ih t (by simpa using hn) (fun j hj => by simpa using h (j + 1) (by omega))]
      simp
      omega

theorem matchName_eq (fuel : Nat) (s : Bytes) (hf : s.length ≤ fuel) : matchName s = charsWhile isName fuel s := by
  induction fuel generalizing s with
  | zero =>
    have : s = [] := List.length_eq_zero_iff.1 (by omega)
    subst this
    rfl
  | succ fuel ih =>
    cases s with
    | nil => rfl
    | cons c t =>
      have hd := decode_facts (c :: t) (by simp)
      rw [charsWhile, if_neg (by simp)]
      dsimp only
      split
      · rename_i h
        rw [matchName_skip (c :: t) _ hd.2, ih]
        · simp only [List.length_drop]
          have := hd.1
          simp only [List.length_cons] at hf ⊢
          omega
        · intro j hj
          by_cases h0 : j = 0
          · subst h0
            simpa using h
          · obtain ⟨x, h1, h2⟩ := decode_tail (c :: t) j (by omega) hj
            have h3 : (c :: t).drop j = x :: (c :: t).drop (j + 1) := by
              obtain ⟨hl, h4⟩ := List.getElem?_eq_some_iff.1 h1
              rw [List.drop_eq_getElem_cons hl, h4]
            rw [h3, decode_cont h2]
            decide +kernel
      · rename_i h
        rw [matchName, if_neg h]

theorem matchName_spec (s : Bytes) : matchName s ≤ s.length ∧ LongestChars NameChar s (matchName s) := by
  rw [matchName_eq s.length s (Nat.le_refl _)]
  exact charsWhile_spec isName NameChar name_iff _ s (Nat.le_refl _)

theorem matchName_char {s : Bytes} (h : s ≠ []) (hn : isName (decodeOrReplacement s).1 = true) :
    matchName s = (decodeOrReplacement s).2 + matchName (s.drop (decodeOrReplacement s).2) := by
  have hd := decode_facts s (List.length_pos_iff.2 h)
  have h1 := matchName_eq s.length s (Nat.le_refl _)
  obtain ⟨n, hl⟩ : ∃ n, s.length = n + 1 := ⟨s.length - 1, by omega⟩
  rw [hl, charsWhile, if_neg h] at h1
  dsimp only at h1
  rw [if_pos hn] at h1
  rw [h1, matchName_eq n _ (by simp; omega)]

theorem matchName_none {s : Bytes} (hn : isName (decodeOrReplacement s).1 = false) : matchName s = 0 := by
  cases s with
  | nil => rfl
  | cons c t => rw [matchName, if_neg (by simp [hn])]

theorem matchName_ascii {c : UInt8} {t : Bytes} (hc : c.toNat < 0x80) (h : isName c.toNat = false) :
    matchName (c :: t) = 0 := by
  apply matchName_none
  obtain ⟨p, rest, e1, e2, fc⟩ := firstChar_decode (s := c :: t) (by simp)
  have := (firstChar_unique fc (firstChar_ascii hc t) (by rw [← e1]; rfl)).1
  rw [this]
  exact h

/-- The predicate stops only where a name ends anyway. -/
def Stops (stop : Bytes → Bool) : Prop := ∀ t, stop t = true → matchName t = 0

theorem space_no_name {t : Bytes} (h : (matchWhitespace t != 0) = true) : matchName t = 0 := by
  cases t with
  | nil => rfl
  | cons c t =>
    have hc : isSpace c = true := by
      rw [matchWhitespace, Ascii.length_if_start _ _ 0 (by omega)] at h
      cases hc : isSpace c with
      | true => rfl
      | false => simp [hc] at h
    have h1 : c.toNat < 0x80 ∧ isName c.toNat = false := by
      clear h
      revert hc
      revert c
      apply forall_byte
      decide +kernel
    exact matchName_ascii h1.1 h1.2

theorem lit_no_name {c : UInt8} {w t : Bytes} (h : startsWith t (c :: w) = true) (hc : c.toNat < 0x80 ∧ isName c.toNat = false) :
    matchName t = 0 := by
  obtain ⟨u, rfl⟩ := startsWith_iff.1 h
  exact matchName_ascii hc.1 hc.2

theorem piStop_stops : Stops piStop := by
  intro t h
  simp only [piStop, Bool.or_eq_true] at h
  rcases h with h | h
  · exact space_no_name h
  · exact lit_no_name h (by decide +kernel)

theorem attrStop_stops : Stops attrStop := by
  intro t h
  simp only [attrStop, Bool.or_eq_true] at h
  rcases h with ((h | h) | h) | h
  · exact space_no_name h
  · exact lit_no_name h (by decide +kernel)
  · exact lit_no_name h (by decide +kernel)
  · exact lit_no_name h (by decide +kernel)

theorem tagStop_stops : Stops tagStop := by
  intro t h
  simp only [tagStop, Bool.or_eq_true] at h
  rcases h with (h | h) | h
  · exact space_no_name h
  · exact lit_no_name h (by decide +kernel)
  · exact lit_no_name h (by decide +kernel)

theorem endStop_stops : Stops endStop := by
  intro t h
  simp only [endStop, Bool.or_eq_true] at h
  rcases h with h | h
  · exact space_no_name h
  · exact lit_no_name h (by decide +kernel)

theorem declStop_stops : Stops declStop := by
  intro t h
  exact space_no_name h

theorem doctypeStop_stops : Stops doctypeStop := by
  intro t h
  simp only [doctypeStop, Bool.or_eq_true] at h
  rcases h with (h | h) | h
  · exact lit_no_name h (by decide +kernel)
  · exact lit_no_name h (by decide +kernel)
  · exact space_no_name h

/-! ## Names -/

theorem expectName_full {ty : HT} {stop : Bytes → Bool} (ht : ty ∈ [HT.name_macro, .name, .markup_tag, .markup_attr])
    (hs : Stops stop) (g : Good rules env s) :
    wp (expectName ty stop) (fun n s' => Good rules env s' ∧ s'.idx = s.idx + n ∧
      (n = 0 → s.rem = [] ∨ stop s.rem = true)) env s := by
  unfold expectName
  rw [wp_bind, wp_rem]
  have ht0 : ty ≠ .none := by rintro rfl; simp at ht
  refine wp_loop (fun st s1 => Good rules env s1 ∧ s1.idx + st.2 = s.idx + st.1 ∧ s.idx ≤ s1.idx ∧
      st.2 ≤ s1.rem.length ∧ matchName s1.rem = st.2 + matchName (s1.rem.drop st.2) ∧ (st.1 = 0 → s1 = s))
    (fun st s1 => s1.rem.length - st.2) ?_ _ _ _ ⟨g, by omega, by omega, by simp, by simp, by simp⟩ (by simp)
  rintro ⟨total, piece⟩ s1 ⟨g1, h1, h2, h3, h4, h5⟩
  simp only at h1 h2 h3 h4 h5
  unfold nameStep
  rw [wp_bind, wp_rem]
  simp only
  have hl := g1.len
  have name_tok : matchName (s1.rem.drop piece) = 0 → rules.tok s1.rem piece ty := by
    intro h
    have := (matchName_spec s1.rem).2
    rw [h4, h, Nat.add_zero] at this
    exact Tok.name this ht
  split
  · rename_i hc
    simp only [Bool.and_eq_true, decide_eq_true_eq, Bool.not_eq_true'] at hc
    have hne : s1.rem.drop piece ≠ [] := by
      intro h
      have := congrArg List.length h
      simp at this
      omega
    have hd := decode_facts _ (List.length_pos_iff.2 hne)
    simp only [List.length_drop] at hd
    split
    · rename_i hb
      obtain ⟨p, rest, e1, e2, fc⟩ := firstChar_decode hne
      have bad : ¬ NameStart (decodeOrReplacement (s1.rem.drop piece)).1 := by
        rw [← nameStart_iff]
        simp only [Bool.or_eq_true, Bool.and_eq_true, decide_eq_true_eq, Bool.not_eq_true'] at hb
        rcases hb with h | h
        · simp [h.2]
        · intro h'
          have := (name_iff _).2 (Or.inl ((nameStart_iff _).1 h'))
          simp [this] at h
      rw [wp_bind]
      refine wp_step_emitAdvIf g1 h3 ht0 (fun hp => name_tok (matchName_none ?_)) fun s2 g2 l2 e2 i2 x2 => ?_
      · simp only [Bool.or_eq_true, Bool.and_eq_true, decide_eq_true_eq, Bool.not_eq_true'] at hb
        rcases hb with h | h
        · omega
        · exact h
      rw [wp_bind]
      refine wp_step_emitAdv g2 (by omega) (by rw [e2]; simp; omega) (by simp)
        (Tok.badName (e2.trans e1) fc bad rfl) fun s3 g3 l3 e3 i3 x3 => ?_
      rw [wp_pure]
      refine ⟨⟨g3, by simp only; omega, by omega, by simp, by simp, by simp⟩, ?_⟩
      rw [e3, e2]
      simp only [List.length_drop]
      omega
    · rename_i hb
      rw [wp_pure]
      have hn : isName (decodeOrReplacement (s1.rem.drop piece)).1 = true := by
        simp only [Bool.or_eq_true, Bool.not_eq_true'] at hb
        grind
      refine ⟨⟨g1, by simp only; omega, h2, by simp only; omega, ?_, fun h => ?_⟩, by simp only; omega⟩
      · rw [h4, matchName_char hne hn, List.drop_drop]
        simp only
        omega
      · simp only at h
        omega
  · rename_i hc
    have hz : matchName (s1.rem.drop piece) = 0 := by
      simp only [Bool.and_eq_true, decide_eq_true_eq, Bool.not_eq_true', not_and, Bool.not_eq_false] at hc
      rcases Nat.lt_or_ge piece s1.rem.length with h | h
      · exact hs _ (hc h)
      · rw [List.drop_eq_nil_of_le h]
        rfl
    rw [wp_bind]
    refine wp_step_emitAdvIf g1 h3 ht0 (fun _ => name_tok hz) fun s2 g2 l2 e2 i2 x2 => ?_
    rw [wp_pure]
    refine ⟨g2, by omega, ?_⟩
    rintro rfl
    obtain rfl := h5 rfl
    have : piece = 0 := by omega
    subst this
    simp only [Bool.and_eq_true, decide_eq_true_eq, Bool.not_eq_true', not_and, Bool.not_eq_false, List.drop_zero] at hc
    rcases Nat.lt_or_ge 0 s1.rem.length with h | h
    · exact Or.inr (hc h)
    · exact Or.inl (List.length_eq_zero_iff.1 (by omega))

theorem expectName_spec {ty : HT} {stop : Bytes → Bool} (ht : ty ∈ [HT.name_macro, .name, .markup_tag, .markup_attr])
    (hs : Stops stop) : Sure rules (fun _ => True) (expectName ty stop) := by
  intro env s g
  refine wp_mono (expectName_full ht hs g) ?_
  rintro n s' ⟨g', h, _⟩
  exact ⟨trivial, g', by omega⟩

/-! ## Small pieces -/

theorem expectLit_at {w : Bytes} {ty : HT} (hw : w ≠ []) (ht : ty ≠ .none) (g : Good rules env s)
    (hR : s.rem.take w.length = w → Tok s.rem w.length ty) :
    wp (expectLit w ty) (fun b s' => (b = true ∧ Good rules env s' ∧ s.idx < s'.idx) ∨
      (b = false ∧ s' = s ∧ s.rem.take w.length ≠ w)) env s := by
  unfold expectLit
  rw [wp_bind, wp_rem]
  split
  · rename_i h
    obtain ⟨h1, h2⟩ := startsWith_facts h _ rfl
    rw [wp_bind]
    refine wp_step_emitAdv g (List.length_pos_iff.2 hw) h1 ht (hR h2) fun s1 g1 l1 e1 i1 x1 => ?_
    rw [wp_pure]
    have := List.length_pos_iff.2 hw
    exact Or.inl ⟨rfl, g1, by omega⟩
  · rename_i h
    rw [wp_pure]
    refine Or.inr ⟨rfl, rfl, fun h' => h (startsWith_iff.2 ⟨s.rem.drop w.length, ?_⟩)⟩
    exact ((List.take_append_drop w.length s.rem).symm.trans (by rw [h']))

theorem expectLit_spec {w : Bytes} {ty : HT} (hw : w ≠ []) (ht : ty ≠ .none)
    (hR : ∀ s : Bytes, s.take w.length = w → Tok s w.length ty) :
    ExpectsOr rules (expectLit w ty) (fun s => s.rem.take w.length ≠ w) :=
  fun _ s g => expectLit_at hw ht g (hR s.rem)

theorem symbol_spec {w : Bytes} (hw : w ∈ [b!"</", b!">", b!"/>", b!"=", b!"<?", b!"?>", b!"[", b!"]", b!"%"]) :
    ExpectsOr rules (expectLit w .symbol_punc) (fun s => s.rem.take w.length ≠ w) := by
  refine expectLit_spec (by rintro rfl; revert hw; decide) (by simp) fun s h => Tok.symbol ?_
  rw [h]
  clear h
  revert hw
  revert w
  simp

theorem macro_spec {w : Bytes} (hw : w ∈ [b!"<?xml", b!"?>", b!"<!", b!">"]) :
    ExpectsOr rules (expectLit w .name_macro) (fun s => s.rem.take w.length ≠ w) := by
  refine expectLit_spec (by rintro rfl; revert hw; decide) (by simp) fun s h => Tok.macro_ ?_
  rw [h]
  clear h
  revert hw
  revert w
  simp

theorem whitespace_facts (r : Bytes) : matchWhitespace r ≤ r.length ∧ Longest Space r (matchWhitespace r) :=
  ⟨(length_if_le r isSpace 0 (by omega)).2, by
    have := length_if_longest r isSpace Space isSpace_iff 0 (by omega)
    simpa [matchWhitespace] using this⟩

theorem expectWhitespace_full (g : Good rules env s) :
    wp expectWhitespace (fun b s' => Good rules env s' ∧ s'.idx = s.idx + matchWhitespace s.rem ∧
      s'.rem = s.rem.drop (matchWhitespace s.rem) ∧ b = (matchWhitespace s.rem != 0)) env s := by
  unfold expectWhitespace
  rw [wp_bind, wp_rem]
  dsimp only
  have h := whitespace_facts s.rem
  rw [wp_bind]
  refine wp_step_advance g h.1 (Gap.space h.2) fun s1 g1 l1 e1 i1 x1 => ?_
  rw [wp_pure]
  exact ⟨g1, i1, e1, rfl⟩

theorem expectWhitespace_spec : Sure rules (fun _ => True) expectWhitespace := by
  intro env s g
  refine wp_mono (expectWhitespace_full g) ?_
  rintro b s' ⟨g', h, _⟩
  exact ⟨trivial, g', by omega⟩

theorem expectReference_spec : ExpectsOr rules expectReference fun s => Html.matchReference s.rem = 0 := by
  intro env s g
  unfold expectReference
  rw [wp_bind, wp_rem]
  dsimp only
  rcases Html.matchReference_spec s.rem with ⟨h, h'⟩ | ⟨h, h'⟩
  · rw [if_neg (by simpa using h), wp_pure]
    exact Or.inr ⟨rfl, rfl, h⟩
  · rw [if_pos h, wp_bind]
    have := Html.ref_le h'
    refine wp_step_emitAdv g (by omega) this.1 (by simp) (Tok.ref h') fun s1 g1 l1 e1 i1 x1 => ?_
    rw [wp_pure]
    exact Or.inl ⟨rfl, g1, by omega⟩

theorem valueRest_spec {q : UInt8} (hq : q = c!"\"" ∨ q = c!"'") (g : Good rules env s) (h : startsWith s.rem [q] = true) :
    wp (valueRest q) (fun b s' => b = true ∧ Good rules env s' ∧ s.idx < s'.idx) env s := by
  unfold valueRest
  obtain ⟨h1, h2⟩ := startsWith_facts h 1 rfl
  have quote : ∀ s : Bytes, s.take 1 = [q] → Tok s 1 .string_delim := by
    intro s h
    refine Tok.quote ?_
    rw [h]
    rcases hq with rfl | rfl <;> decide
  rw [wp_bind]
  refine wp_step_emitAdv g (by omega) h1 (by simp) (quote _ h2) fun s1 g1 l1 e1 i1 x1 => ?_
  rw [wp_bind, wp_rem, wp_bind]
  refine wp_scan (R := rules) (fun n s' => ∀ c ∈ s'.rem.take n, c ≠ q ∧ c ≠ c!"<" ∧ c ≠ c!"&") ?_ g1 (by omega)
    (by simp) (by omega)
  intro n s2 g2 l2 i2 hn hI
  unfold valueStep
  rw [wp_bind, wp_rem]
  have value : (∀ c, s2.rem[n]? = some c → c = q ∨ c = c!"<" ∨ c = c!"&") → Tok s2.rem n .string := by
    intro h
    refine Tok.value hq ⟨hI, fun c hc => ?_⟩
    have := h c hc
    grind
  split
  · rename_i h
    rw [wp_bind]
    refine wp_step_emitAdvIf g2 hn (by simp) (fun _ => value (by grind)) fun s3 g3 l3 e3 i3 x3 => ?_
    rw [wp_pure, wp_bind]
    refine wp_mono (expectLit_spec (w := [q]) (by simp) (by simp) quote env s3 g3) ?_
    rintro _ s4 (⟨rfl, g4, h⟩ | ⟨rfl, rfl, _⟩)
    · rw [wp_pure]
      exact ⟨rfl, g4, by omega⟩
    · rw [wp_pure]
      exact ⟨rfl, g3, by omega⟩
  rename_i hn1
  obtain ⟨c, hc⟩ : ∃ c, s2.rem[n]? = some c := by
    cases h : s2.rem[n]? with
    | none => simp [h] at hn1
    | some c => exact ⟨c, rfl⟩
  have hlt : n < s2.rem.length := (List.getElem?_eq_some_iff.1 hc).1
  have hd : s2.rem.drop n = c :: s2.rem.drop (n + 1) := by
    rw [List.drop_eq_getElem_cons hlt, (List.getElem?_eq_some_iff.1 hc).2]
  split
  · rename_i h
    rw [wp_bind]
    refine wp_step_emitAdvIf g2 hn (by simp) (fun _ => value (by grind)) fun s3 g3 l3 e3 i3 x3 => ?_
    rw [wp_bind]
    refine wp_step_emitAdv g3 (by omega) (by rw [e3]; simp; omega) (by simp) ?_ fun s4 g4 l4 e4 i4 x4 => ?_
    · rcases h with ⟨h, h'⟩ | h
      · refine Tok.badRef ?_ ?_
        · rw [e3, hd]
          rw [h] at hc
          simp at hc
          simp [hc]
        · rw [Html.noRef_iff, e3]
          simpa using h'
      · refine Tok.badOpen ?_
        rw [e3, hd]
        rw [h] at hc
        simp at hc
        simp [hc]
    rw [wp_pure]
    exact ⟨g4, by omega, by omega, by omega, by simp⟩
  rename_i h
  split
  · rename_i ha
    rw [wp_bind]
    refine wp_step_emitAdvIf g2 hn (by simp) (fun _ => value (by grind)) fun s3 g3 l3 e3 i3 x3 => ?_
    rw [wp_bind]
    refine wp_mono (expectReference_spec env s3 g3) ?_
    rintro _ s4 (⟨rfl, g4, h⟩ | ⟨rfl, rfl, h'⟩)
    · rw [wp_pure]
      exact ⟨g4, by omega, by omega, by omega, by simp⟩
    · rw [e3] at h'
      exact absurd (Or.inl ⟨ha, h'⟩) h
  · rename_i ha
    rw [wp_pure]
    refine ⟨g2, by omega, by omega, by omega, ?_⟩
    intro x hx
    rw [List.take_add_one, hc] at hx
    simp at hx
    grind

theorem expectValue_spec : ExpectsOr rules expectValue fun s => startsWith s.rem b!"'" = false ∧ startsWith s.rem b!"\"" = false := by
  intro env s g
  unfold expectValue
  rw [wp_bind, wp_rem]
  split
  · rename_i h
    exact wp_mono (valueRest_spec (Or.inr rfl) g h) fun b s' h => Or.inl h
  · rename_i h
    split
    · rename_i h
      exact wp_mono (valueRest_spec (Or.inl rfl) g h) fun b s' h => Or.inl h
    · rename_i h'
      rw [wp_pure]
      exact Or.inr ⟨rfl, rfl, by simpa using h, by simpa using h'⟩

theorem or_spec {m m' : HM Unit Bool} {F G : HS Unit → Prop} (h : ExpectsOr rules m F) (h' : ExpectsOr rules m' G) :
    ExpectsOr rules (HM.or m m') (fun s => F s ∧ G s) := by
  intro env s g
  refine wp_step_or (wp_mono (h env s g) ?_)
  rintro _ s1 (⟨rfl, g1, h1⟩ | ⟨rfl, rfl, hF⟩)
  · simpa using ⟨g1, h1⟩
  · simp only [Bool.false_eq_true, if_false]
    refine wp_mono (h' env s1 g) ?_
    rintro _ s2 (⟨rfl, g1, h1⟩ | ⟨rfl, rfl, hG⟩)
    · exact Or.inl ⟨rfl, g1, h1⟩
    · exact Or.inr ⟨rfl, rfl, hF, hG⟩

/-! ## Comments, instructions and sections -/

theorem commentLoop_spec (length : Nat) (s : Bytes) : ∃ k, k ≤ s.length ∧ UpTo b!"--" s k ∧
    ((commentLoop length s = ⟨length + k + 3, true⟩ ∧ k + 3 ≤ s.length ∧ (s.drop k).take 3 = b!"-->") ∨
      commentLoop length s = ⟨length + k, false⟩) := by
  induction s generalizing length with
  | nil =>
    refine ⟨0, by simp, ⟨fun k _ => by omega, Or.inl rfl⟩, Or.inr rfl⟩
  | cons c t ih =>
    rw [commentLoop]
    have occ : startsWith (c :: t) b!"--" = true → OccursAt b!"--" (c :: t) 0 := by
      intro h
      obtain ⟨u, e⟩ := startsWith_iff.1 h
      exact ⟨[], u, by simpa using e, rfl⟩
    split
    · rename_i h
      obtain ⟨h1, h2⟩ := startsWith_facts h 3 rfl
      obtain ⟨u, e⟩ := startsWith_iff.1 h
      refine ⟨0, by simp, ⟨fun k _ => by omega, Or.inr (occ ?_)⟩, Or.inl ⟨rfl, by omega, by simpa using h2⟩⟩
      exact startsWith_iff.2 ⟨c!">" :: u, by simpa using e⟩
    · split
      · rename_i h
        exact ⟨0, by simp, ⟨fun k _ => by omega, Or.inr (occ h)⟩, Or.inr rfl⟩
      · rename_i h
        obtain ⟨k, h1, ⟨h2, h3⟩, h4⟩ := ih (length + 1)
        refine ⟨k + 1, by simpa using h1, ⟨fun j hj => ?_, ?_⟩, ?_⟩
        · cases j with
          | zero =>
            obtain ⟨x, y, e, hx⟩ := hj
            have : x = [] := List.length_eq_zero_iff.1 hx
            subst this
            exact absurd (startsWith_iff.2 ⟨y, by simpa using e⟩) h
          | succ j =>
            have := h2 j (Html.occursAt_cons.1 hj)
            omega
        · rcases h3 with h3 | h3
          · exact Or.inl (by simp [h3])
          · exact Or.inr (Html.occursAt_cons.2 h3)
        · rcases h4 with ⟨h4, h5, h6⟩ | h4
          · exact Or.inl ⟨by rw [h4]; congr 1; omega, by simp; omega, by simpa using h6⟩
          · exact Or.inr (by rw [h4]; congr 1; omega)

theorem expectComment_spec : ExpectsOr rules expectComment fun s => s.rem.take 4 ≠ b!"<!--" := by
  intro env s g
  unfold expectComment
  rw [wp_bind, wp_rem]
  dsimp only
  unfold matchComment
  have hl := g.len
  split
  · rename_i h
    rw [if_pos rfl, wp_pure]
    refine Or.inr ⟨rfl, rfl, fun h' => ?_⟩
    have : startsWith s.rem b!"<!--" = true :=
      startsWith_iff.2 ⟨s.rem.drop 4, (List.take_append_drop 4 s.rem).symm.trans (by rw [h'])⟩
    simp [this] at h
  · rename_i h
    simp at h
    obtain ⟨h1, h2⟩ := startsWith_facts h 4 rfl
    obtain ⟨k, hk, hu, ⟨h4, h5, h6⟩ | h4⟩ := commentLoop_spec 4 (s.rem.drop 4)
    · simp only [List.length_drop] at hk h5
      rw [h4, if_neg (by simp), wp_bind]
      refine wp_step_emitAdv g (by omega) h1 (by simp) (Tok.commentOpen h2) fun s1 g1 l1 e1 i1 x1 => ?_
      simp only [if_true]
      rw [show 4 + k + 3 - 4 - 3 = k by omega, wp_bind]
      refine wp_step_emitAdvIf g1 (by omega) (by simp) (fun _ => Tok.commentText (by rw [e1]; exact hu))
        fun s2 g2 l2 e2 i2 x2 => ?_
      rw [wp_bind]
      refine wp_step_emitAdv g2 (by omega) (by omega) (by simp) (Tok.commentClose (by rw [e2, e1]; exact h6))
        fun s3 g3 l3 e3 i3 x3 => ?_
      rw [wp_pure]
      exact Or.inl ⟨rfl, g3, by omega⟩
    · simp only [List.length_drop] at hk
      rw [h4, if_neg (by simp), wp_bind]
      refine wp_step_emitAdv g (by omega) h1 (by simp) (Tok.commentOpen h2) fun s1 g1 l1 e1 i1 x1 => ?_
      simp only [Bool.false_eq_true, if_false]
      rw [show 4 + k - 4 = k by omega, wp_bind]
      refine wp_step_emitAdvIf g1 (by omega) (by simp) (fun _ => Tok.commentText (by rw [e1]; exact hu))
        fun s2 g2 l2 e2 i2 x2 => ?_
      rw [wp_pure]
      exact Or.inl ⟨rfl, g2, by omega⟩

theorem pi_loop {γ : Type} {f : Unit → HM Unit γ} {T : γ → Prop} (hf : ∀ a, Sure rules T (f a)) :
    Sure rules T (HM.rem >>= fun r => HM.loop (r.length + 1) piStep () >>= f) := by
  refine Sure.loop (P := fun _ => True) ?_ (fun a _ => hf a)
  intro _ env s g
  unfold piStep
  rw [wp_bind, wp_rem]
  split
  · rename_i h
    simp only [Bool.and_eq_true, Bool.not_eq_true', List.isEmpty_eq_false_iff] at h
    rw [wp_bind]
    have hne : 0 < s.rem.length := List.length_pos_iff.2 h.1
    refine wp_step_advance g (by omega) (Gap.instruction fun k hk => ?_) fun s1 g1 l1 e1 i1 x1 => ?_
    · have : k = 0 := by omega
      subst this
      rintro ⟨x, y, e, hx⟩
      have : x = [] := List.length_eq_zero_iff.1 hx
      subst this
      have : startsWith s.rem b!"?>" = true := startsWith_iff.2 ⟨y, by simpa using e⟩
      simp [this] at h
    rw [wp_pure]
    exact ⟨g1, by omega⟩
  · rw [wp_pure]
    exact ⟨trivial, .refl g⟩

theorem expectPI_spec : ExpectsOr rules expectPI fun s => s.rem.take 2 ≠ b!"<?" := by
  unfold expectPI
  refine expectsOr_then (symbol_spec (w := b!"<?") (by simp)) ?_
  refine (expectName_spec (by simp) piStop_stops).seq fun n => ?_
  split
  · exact .pure rfl
  intro env s g
  rw [wp_bind, wp_rem]
  revert env s g
  intro env s g
  split
  · rw [wp_pure]
    exact ⟨rfl, .refl g⟩
  · refine expectWhitespace_spec.seq (fun _ => pi_loop fun _ => ?_) env s g
    exact (Sure.of_expectsOr (symbol_spec (by simp))).seq fun _ => .pure rfl

theorem expectCData_spec : ExpectsOr rules expectCData fun s => s.rem.take 9 ≠ b!"<![CDATA[" := by
  intro env s g
  unfold expectCData
  rw [wp_bind, wp_rem]
  dsimp only
  have hl := g.len
  rcases Html.matchCData_spec s.rem with ⟨h1, h2⟩ | ⟨h0, k, hk, hu, ⟨h1, h2, h3⟩ | ⟨h1, h2⟩⟩
  · rw [h1, if_pos rfl, wp_pure]
    exact Or.inr ⟨rfl, rfl, h2⟩
  · rw [h1, if_neg (by simp), wp_bind]
    refine wp_step_emitAdv g (by omega) (by omega) (by simp) (Tok.macro_ (by rw [h0]; decide)) fun s1 g1 l1 e1 i1 x1 => ?_
    simp only [if_true]
    rw [show 9 + k + 3 - 9 - 3 = k by omega, wp_bind]
    refine wp_step_advance g1 (by omega) (Gap.cdata (by rw [e1]; exact hu)) fun s2 g2 l2 e2 i2 x2 => ?_
    rw [wp_bind]
    refine wp_step_emitAdv g2 (by omega) (by omega) (by simp)
      (Tok.macro_ (by rw [e2, e1, List.drop_drop, h3]; decide)) fun s3 g3 l3 e3 i3 x3 => ?_
    rw [wp_pure]
    exact Or.inl ⟨rfl, g3, by omega⟩
  · rw [h1, if_neg (by simp), wp_bind]
    refine wp_step_emitAdv g (by omega) (by omega) (by simp) (Tok.macro_ (by rw [h0]; decide)) fun s1 g1 l1 e1 i1 x1 => ?_
    simp only [Bool.false_eq_true, if_false]
    rw [show 9 + k - 9 = k by omega, wp_bind]
    refine wp_step_advance g1 (by omega) (Gap.cdata (by rw [e1]; exact hu)) fun s2 g2 l2 e2 i2 x2 => ?_
    rw [wp_pure]
    exact Or.inl ⟨rfl, g2, by omega⟩

/-! ## Tags and text -/

theorem take_of_startsWith {s w : Bytes} : startsWith s w = true ↔ s.take w.length = w :=
  ⟨fun h => (startsWith_facts h _ rfl).2, fun h =>
    startsWith_iff.2 ⟨s.drop w.length, (List.take_append_drop w.length s).symm.trans (by rw [h])⟩⟩

theorem whitespace_pos {s : Bytes} (h : matchWhitespace s ≠ 0) : 0 < s.length := by
  have := (whitespace_facts s).1
  omega

theorem expectAttribute_spec (g : Good rules env s) :
    wp expectAttribute (fun _ s' => Moved rules env s s' ∧ (s.rem ≠ [] → matchWhitespace s.rem = 0 →
      startsWith s.rem b!">" = false → startsWith s.rem b!"/>" = false → s.idx < s'.idx)) env s := by
  unfold expectAttribute
  rw [wp_bind]
  refine wp_mono (expectName_full (by simp) attrStop_stops g) ?_
  rintro n s1 ⟨g1, i1, h1⟩
  have last : ∀ s2, Good rules env s2 → s.idx < s2.idx → wp (do
      let _ ← expectWhitespace
      expectValue) (fun _ s' => Moved rules env s s' ∧ (s.rem ≠ [] → matchWhitespace s.rem = 0 →
      startsWith s.rem b!">" = false → startsWith s.rem b!"/>" = false → s.idx < s'.idx)) env s2 := by
    intro s2 g2 h2
    refine wp_mono (expectWhitespace_spec.seq (fun _ => Sure.of_expectsOr expectValue_spec) env s2 g2) ?_
    rintro _ s3 ⟨_, h3⟩
    have := h3.le
    exact ⟨⟨h3.good, by omega⟩, fun _ _ _ _ => by omega⟩
  rw [wp_bind]
  refine wp_mono (expectWhitespace_full g1) ?_
  rintro _ s2 ⟨g2, i2, e2, rfl⟩
  rw [wp_bind]
  refine wp_mono (symbol_spec (w := b!"=") (by simp) env s2 g2) ?_
  rintro _ s3 (⟨rfl, g3, h3⟩ | ⟨rfl, rfl, h3⟩)
  · simp only [if_true]
    exact last s3 g3 (by omega)
  · simp only [Bool.false_eq_true, if_false]
    rw [wp_pure]
    refine ⟨⟨g2, by omega⟩, fun hne hw ha hb => ?_⟩
    by_cases hn : n = 0
    · rcases h1 hn with h | h
      · exact absurd h hne
      · simp only [attrStop, hw, ha, hb, bne_self_eq_false, Bool.false_or] at h
        have hs1 : s1.rem = s.rem := by
          have h1 : s.rem = env.src.drop s.idx := g.rem
          have h2 : s1.rem = env.src.drop s1.idx := g1.rem
          rw [h1, h2, i1, hn]
          rfl
        rw [e2, hs1, hw] at h3
        exact absurd (take_of_startsWith.1 h) h3
    · omega

theorem expectStartTag_spec (g : Good rules env s) (other : ∀ w ∈ [b!"<!--", b!"<![CDATA[", b!"<?", b!"</"], s.rem.take w.length ≠ w) :
    wp expectStartTag (fun b s' => (b = true ∧ Good rules env s' ∧ s.idx < s'.idx) ∨
      (b = false ∧ s' = s ∧ s.rem.take 1 ≠ b!"<")) env s := by
  unfold expectStartTag
  rw [wp_bind]
  refine wp_mono (expectLit_at (w := b!"<") (by simp) (by simp) g fun h => Tok.open_ h other) ?_
  rintro _ s1 (⟨rfl, g1, h1⟩ | ⟨rfl, rfl, h1⟩)
  · simp only [if_true]
    have : Sure (σ := Unit) rules (· = true) (do
      let n ← expectName .markup_tag tagStop
      if n = 0 then pure true
      else do
        let r ← HM.rem
        HM.loop (r.length + 1) attributesStep ()
        let _ ← HM.or (expectLit b!">" .symbol_punc) (expectLit b!"/>" .symbol_punc)
        pure true) := by
      refine (expectName_spec (by simp) tagStop_stops).seq fun n => ?_
      split
      · exact .pure rfl
      refine Sure.loop (P := fun _ => True) ?_ fun _ _ =>
        (Sure.of_expectsOr (or_spec (symbol_spec (by simp)) (symbol_spec (by simp)))).seq fun _ => .pure rfl
      intro _ env s g
      unfold attributesStep
      rw [wp_bind, wp_rem]
      split
      · rw [wp_pure]
        exact ⟨trivial, .refl g⟩
      rename_i he
      rw [wp_bind]
      refine wp_mono (expectWhitespace_full g) ?_
      rintro _ s1 ⟨g1, i1, e1, rfl⟩
      rw [wp_bind, wp_rem]
      split
      · rw [wp_pure]
        exact ⟨trivial, g1, by omega⟩
      rename_i hno
      simp only [Bool.or_eq_true, not_or, Bool.not_eq_true] at hno
      rw [wp_bind]
      refine wp_mono (expectAttribute_spec g1) ?_
      rintro b s2 ⟨hm, hp⟩
      have := hm.le
      cases b with
      | false =>
        simp only [Bool.false_eq_true, if_false]
        rw [wp_pure]
        exact ⟨trivial, hm.good, by omega⟩
      | true =>
        simp only [if_true]
        rw [wp_pure]
        refine ⟨hm.good, ?_⟩
        by_cases hw : matchWhitespace s.rem = 0
        · rw [hw, List.drop_zero] at e1
          have := hp (by rw [e1]; simpa using he) (by rw [e1]; exact hw) hno.1 hno.2
          omega
        · omega
    refine wp_mono (this env s1 g1) ?_
    rintro _ s2 ⟨rfl, h2⟩
    have := h2.le
    exact Or.inl ⟨rfl, h2.good, by omega⟩
  · simp only [Bool.false_eq_true, if_false]
    rw [wp_pure]
    exact Or.inr ⟨rfl, rfl, h1⟩

theorem expectEndTag_spec : ExpectsOr rules expectEndTag fun s => s.rem.take 2 ≠ b!"</" := by
  unfold expectEndTag
  refine expectsOr_then (symbol_spec (w := b!"</") (by simp)) ?_
  refine (expectName_spec (by simp) endStop_stops).seq fun n => ?_
  split
  · exact .pure rfl
  · exact expectWhitespace_spec.seq fun _ => (Sure.of_expectsOr (symbol_spec (by simp))).seq fun _ => .pure rfl

theorem expectText_spec (g : Good rules env s) (hne : s.rem ≠ []) :
    wp expectText (fun b s' => b = true ∧ Good rules env s' ∧ s.idx < s'.idx) env s := by
  unfold expectText
  rw [wp_bind, wp_rem]
  dsimp only
  have h1 := (length_if_not_le s.rem (fun c => c = c!"<" || c = c!"&") 0 (by omega)).2
  have h2 := length_if_not_longest s.rem (fun c => c = c!"<" || c = c!"&") (fun c => c ≠ c!"<" ∧ c ≠ c!"&") (by simp) 0 (by omega)
  simp only [List.drop_zero, Nat.sub_zero] at h2
  have hl := List.length_pos_iff.2 hne
  split
  · rename_i h
    rw [wp_bind]
    refine wp_step_advance g h1 (Gap.text h2) fun s1 g1 l1 e1 i1 x1 => ?_
    rw [wp_pure]
    exact ⟨rfl, g1, by unfold matchText at h i1; omega⟩
  · rename_i h
    split
    · rename_i ha
      obtain ⟨ha1, ha2⟩ := startsWith_facts ha 1 rfl
      rw [wp_bind]
      refine wp_mono (expectReference_spec env s g) ?_
      rintro _ s1 (⟨rfl, g1, h1⟩ | ⟨rfl, rfl, h1⟩)
      · simp only [if_true]
        rw [wp_pure]
        exact ⟨rfl, g1, h1⟩
      · simp only [Bool.false_eq_true, if_false, wp_bind]
        refine wp_step_emitAdv g (by omega) ha1 (by simp)
          (Tok.badRef ha2 ((Html.noRef_iff _ 0).2 (by simpa using h1))) fun s1 g1 l1 e1 i1 x1 => ?_
        rw [wp_pure]
        exact ⟨rfl, g1, by omega⟩
    · rename_i ha
      split
      · rename_i hb
        obtain ⟨ha1, ha2⟩ := startsWith_facts hb 1 rfl
        rw [wp_bind]
        refine wp_step_emitAdv g (by omega) ha1 (by simp) (Tok.badOpen ha2) fun s1 g1 l1 e1 i1 x1 => ?_
        rw [wp_pure]
        exact ⟨rfl, g1, by omega⟩
      · rename_i hb
        exfalso
        obtain ⟨c, t, hc⟩ := List.exists_cons_of_ne_nil hne
        simp only [matchText, ne_eq, Decidable.not_not] at h
        rw [h, hc] at h2
        have := h2.2
        simp at this
        rw [hc] at ha hb
        simp [startsWith_cons_cons] at ha hb
        grind

/-! ## Document type declarations -/

theorem expectExternalId_spec : Sure rules (fun _ => True) expectExternalId := by
  intro env s g
  unfold expectExternalId
  rw [wp_bind, wp_rem, wp_bind, wp_lift]
  obtain ⟨cs, hcs, _⟩ := C14_chars_exist_unique s.rem
  refine ⟨_, (C15_find_if s.rem cs hcs isSpaceChar).1, ?_⟩
  generalize (firstOffset isSpaceChar cs).getD s.rem.length = k
  have key : ∀ w : Bytes, w.length = 6 → s.rem.take k = w → 6 ≤ s.rem.length ∧ s.rem.take 6 = w := by
    rintro w hw rfl
    simp at hw
    refine ⟨by omega, ?_⟩
    by_cases h : k = 6
    · rw [h]
    · rw [List.take_of_length_le (by omega), List.take_of_length_le (by omega)]
  have value := Sure.of_expectsOr expectValue_spec
  split
  · rename_i h
    obtain ⟨h1, h2⟩ := key _ rfl h
    rw [wp_bind]
    refine wp_step_emitAdv g (by omega) h1 (by simp) (Tok.keyword (by rw [h2]; decide)) fun s1 g1 l1 e1 i1 x1 => ?_
    refine wp_mono (expectWhitespace_spec.seq (fun _ => value.seq fun _ => .pure (P := fun _ => True) trivial) env s1 g1) ?_
    rintro _ s2 ⟨_, h2⟩
    exact ⟨trivial, h2.good, by have := h2.le; omega⟩
  · split
    · rename_i h
      obtain ⟨h1, h2⟩ := key _ rfl h
      rw [wp_bind]
      refine wp_step_emitAdv g (by omega) h1 (by simp) (Tok.keyword (by rw [h2]; decide)) fun s1 g1 l1 e1 i1 x1 => ?_
      refine wp_mono (expectWhitespace_spec.seq (fun _ => value.seq fun _ => expectWhitespace_spec.seq fun _ =>
        value.seq fun _ => .pure (P := fun _ => True) trivial) env s1 g1) ?_
      rintro _ s2 ⟨_, h2⟩
      exact ⟨trivial, h2.good, by have := h2.le; omega⟩
    · rw [wp_pure]
      exact ⟨trivial, .refl g⟩

theorem longestChars_unique {P : Nat → Prop} {s : Bytes} {n m : Nat} (h : LongestChars P s n) (h' : LongestChars P s m) :
    n = m := by
  obtain ⟨a, b, h1, rfl, h2, h3⟩ := h
  obtain ⟨a', b', h1', rfl, h2', h3'⟩ := h'
  obtain ⟨cs, _, hu⟩ := C14_chars_exist_unique s
  have e := (hu _ h1).trans (hu _ h1').symm
  rcases List.append_eq_append_iff.1 e with ⟨x, rfl, e2⟩ | ⟨x, rfl, e2⟩
  · cases x with
    | nil => simp
    | cons c x => exact absurd (h2' c (by simp)) (h3 c (by rw [e2]; rfl))
  · cases x with
    | nil => simp
    | cons c x => exact absurd (h2 c (by simp)) (h3' c (by rw [e2]; rfl))

theorem matchName_mem {w : Bytes} (h : matchName w = w.length) : c!";" ∉ w := by
  induction w with
  | nil => simp
  | cons c t ih =>
    rw [matchName] at h
    split at h
    · rename_i hn
      simp only [List.length_cons, Nat.add_right_cancel_iff] at h
      simp only [List.mem_cons, not_or]
      refine ⟨fun hc => ?_, ih h⟩
      subst hc
      have := matchName_ascii (c := c!";") (t := t) (by decide) (by decide +kernel)
      rw [matchName, if_pos hn] at this
      omega
    · simp at h

theorem entityRef_iff (s : Bytes) (n : Nat) : EntityRef s n ↔ matchReferenceWith c!"&" s = n ∧ n ≠ 0 := by
  unfold matchReferenceWith
  constructor
  · rintro ⟨w, t, rfl, rfl, hw⟩
    have hm : matchName w = w.length := longestChars_unique (matchName_spec w).2 hw
    have hf : findSub b!";" (w ++ b!";" ++ t) = some w.length := by
      rw [List.append_assoc]
      exact Html.findSub_one (matchName_mem hm)
    have hs : startsWith (b!"&" ++ w ++ b!";" ++ t) [c!"&"] = true := startsWith_iff.2 ⟨w ++ b!";" ++ t, by simp⟩
    rw [hs]
    have hd : (b!"&" ++ w ++ b!";" ++ t).drop 1 = w ++ b!";" ++ t := by simp
    rw [hd, hf]
    simp [hm]
  · rintro ⟨h, hn⟩
    split at h
    · omega
    · rename_i hs
      simp only [Bool.not_eq_true', Bool.not_eq_false] at hs
      obtain ⟨u, rfl⟩ := startsWith_iff.1 hs
      simp only [List.cons_append, List.nil_append, List.drop_succ_cons, List.drop_zero] at h
      split at h
      · rename_i k hk
        obtain ⟨a, t, rfl, ha, rfl⟩ := Html.findSub_one_some hk
        rw [List.take_left] at h
        split at h
        · rename_i hm
          refine ⟨a, t, by simp, by omega, ?_⟩
          have := (matchName_spec a).2
          rwa [hm] at this
        · omega
      · omega

theorem entityRef_le {s : Bytes} {n : Nat} (h : EntityRef s n) : 0 < n ∧ n ≤ s.length := by
  obtain ⟨w, t, rfl, rfl, _⟩ := h
  simp

theorem matchAttType_spec (s : Bytes) : matchAttType s = 0 ∨
    (0 < matchAttType s ∧ matchAttType s ≤ s.length ∧ Tok s (matchAttType s) .keyword) := by
  unfold matchAttType
  have hw : ∀ w ∈ Xml.attTypes, w ∈ Spec.Xml.attTypes ∧ 0 < w.length := by decide
  rcases find_if_longest s (fun c => isSpace c || c = c!">") (fun c => ¬ Space c ∧ c ≠ c!">")
    (by intro c; simp [← isSpace_iff]) 0 (by omega) with ⟨j, c, h1, h2, h3, h4, h5, h6⟩ | ⟨h1, h2⟩
  · rw [h1]
    dsimp only
    split
    · rename_i h
      right
      have h' := hw _ (by simpa using h)
      rw [List.length_take, Nat.min_eq_left (by omega)] at *
      refine ⟨h'.2, by omega, Tok.attType h'.1 ?_⟩
      intro c' hc'
      rw [h4] at hc'
      simp at hc'
      subst hc'
      simp only [Bool.or_eq_true, decide_eq_true_eq, isSpace_iff] at h5
      exact h5
    · exact Or.inl rfl
  · rw [h1]
    dsimp only
    split
    · rename_i h
      right
      have h' := hw _ (by simpa using h)
      refine ⟨h'.2, by omega, Tok.attType (by rw [List.take_length]; exact h'.1) ?_⟩
      intro c' hc'
      simp at hc'
    · exact Or.inl rfl

theorem keyword_of {s w : Bytes} (h : startsWith s w = true) (hw : w ∈ keywords) :
    w.length ≤ s.length ∧ Tok s w.length .keyword := by
  obtain ⟨h1, h2⟩ := startsWith_facts h _ rfl
  exact ⟨h1, Tok.keyword (by rw [h2]; exact hw)⟩

theorem declKeyword_spec (s : Bytes) : (declKeyword s = 0 ∧ ∀ w ∈ keywords, s.take w.length ≠ w) ∨
    (0 < declKeyword s ∧ declKeyword s ≤ s.length ∧ Tok s (declKeyword s) .keyword) := by
  unfold declKeyword
  rcases matchAttType_spec s with h | h
  · rw [if_neg (by omega)]
    by_cases hd : matchDefaultDecl s = 0
    · rw [if_neg (by omega)]
      by_cases he : matchExternalId s = 0
      · rw [if_neg (by omega)]
        by_cases hc : matchContentSpec s = 0
        · rw [if_neg (by omega)]
          by_cases hn : matchNdata s = 0
          · rw [if_neg (by omega)]
            by_cases hp : matchPcdata s = 0
            · refine Or.inl ⟨hp, ?_⟩
              have hd : ∀ w ∈ Xml.defaultDecls, startsWith s w = false := by
                unfold matchDefaultDecl at hd
                split at hd
                · rename_i w hw
                  have := List.mem_of_find?_eq_some hw
                  have hl : ∀ w ∈ Xml.defaultDecls, w.length ≠ 0 := by decide
                  exact absurd hd (hl w this)
                · rename_i hw
                  simpa using hw
              intro w hw
              rw [ne_eq, ← take_of_startsWith]
              simp [Xml.defaultDecls] at hd
              unfold matchExternalId at he
              unfold matchContentSpec at hc
              unfold matchNdata at hn
              unfold matchPcdata at hp
              simp only [keywords, List.mem_cons, List.not_mem_nil, or_false] at hw
              rcases hw with rfl | rfl | rfl | rfl | rfl | rfl | rfl | rfl | rfl <;> grind
            · unfold matchPcdata at hp ⊢
              split
              · rename_i h
                obtain ⟨h1, h2⟩ := keyword_of h (by decide)
                exact Or.inr ⟨by omega, h1, h2⟩
              · rename_i h
                simp [h] at hp
          · rw [if_pos hn]
            unfold matchNdata at hn ⊢
            split
            · rename_i h
              obtain ⟨h1, h2⟩ := keyword_of h (by decide)
              exact Or.inr ⟨by omega, h1, h2⟩
            · rename_i h
              simp [h] at hn
        · rw [if_pos hc]
          unfold matchContentSpec at hc ⊢
          split
          · rename_i h
            obtain ⟨h1, h2⟩ := keyword_of h (by decide)
            exact Or.inr ⟨by omega, h1, h2⟩
          · rename_i h0
            split
            · rename_i h
              obtain ⟨h1, h2⟩ := keyword_of h (by decide)
              exact Or.inr ⟨by omega, h1, h2⟩
            · rename_i h
              simp [h0, h] at hc
      · rw [if_pos he]
        unfold matchExternalId at he ⊢
        split
        · rename_i h
          obtain ⟨h1, h2⟩ := keyword_of h (by decide)
          exact Or.inr ⟨by omega, h1, h2⟩
        · rename_i h0
          split
          · rename_i h
            obtain ⟨h1, h2⟩ := keyword_of h (by decide)
            exact Or.inr ⟨by omega, h1, h2⟩
          · rename_i h
            simp [h0, h] at he
    · rw [if_pos hd]
      unfold matchDefaultDecl at hd ⊢
      split
      · rename_i w hw
        have hm := List.mem_of_find?_eq_some hw
        have hs := List.find?_some hw
        have hl : ∀ w ∈ Xml.defaultDecls, 0 < w.length ∧ w ∈ keywords := by decide
        obtain ⟨h1, h2⟩ := keyword_of hs (hl w hm).2
        exact Or.inr ⟨(hl w hm).1, h1, h2⟩
      · rename_i hw
        simp [hw] at hd
  · rw [if_pos (by omega)]
    exact Or.inr h

theorem declPart_spec (g : Good rules env s) (hne : s.rem ≠ []) (hgt : startsWith s.rem b!">" = false) :
    wp declPart (fun _ s' => Moved rules env s s' ∧ (s.idx < s'.idx ∨ matchWhitespace s'.rem ≠ 0)) env s := by
  unfold declPart
  rw [wp_bind, wp_rem]
  obtain ⟨c, t, hc⟩ := List.exists_cons_of_ne_nil hne
  have hlen : 0 < s.rem.length := List.length_pos_iff.2 hne
  split
  · rename_i h
    rw [hc] at h
    simp at h
    refine wp_step_emitAdv g (by omega) (by omega) (by simp) (Tok.symbol ?_) fun s1 g1 l1 e1 i1 x1 => ?_
    · rw [hc]
      simp
      grind
    exact ⟨⟨g1, by omega⟩, Or.inl (by omega)⟩
  rename_i h1
  split
  · rename_i h
    rcases declKeyword_spec s.rem with ⟨h', _⟩ | ⟨h1, h2, h3⟩
    · exact absurd h' h
    refine wp_step_emitAdv g h1 h2 (by simp) h3 fun s1 g1 l1 e1 i1 x1 => ?_
    exact ⟨⟨g1, by omega⟩, Or.inl (by omega)⟩
  rename_i h2
  split
  · rename_i h
    have hr := (entityRef_iff s.rem _).2 ⟨rfl, h⟩
    have := entityRef_le hr
    refine wp_step_emitAdv g this.1 this.2 (by simp) (Tok.entityRef hr) fun s1 g1 l1 e1 i1 x1 => ?_
    exact ⟨⟨g1, by omega⟩, Or.inl (by omega)⟩
  rename_i h3
  have hname := matchName_spec s.rem
  split
  · rename_i h
    refine wp_step_emitAdv g (by omega) hname.1 (by simp) (Tok.name hname.2 (by simp)) fun s1 g1 l1 e1 i1 x1 => ?_
    exact ⟨⟨g1, by omega⟩, Or.inl (by omega)⟩
  rename_i h4
  split
  · rename_i h
    rw [wp_bind]
    refine wp_mono (expectValue_spec env s g) ?_
    rintro _ s1 (⟨_, g1, h1⟩ | ⟨_, rfl, h1, h2⟩)
    · rw [wp_pure]
      exact ⟨⟨g1, by omega⟩, Or.inl h1⟩
    · simp [h1, h2] at h
  rename_i h5
  have hl1 := (length_if_not_le s.rem (fun c => isSpace c || c = c!">") 0 (by omega)).2
  have hl2 := length_if_not_longest s.rem (fun c => isSpace c || c = c!">") (fun c => ¬ Space c ∧ c ≠ c!">")
    (by intro c; simp [← isSpace_iff]) 0 (by omega)
  simp only [List.drop_zero, Nat.sub_zero] at hl2
  refine wp_step_advance g hl1 (Gap.junk hl2 ?_ ?_ ?_ ?_) fun s1 g1 l1 e1 i1 x1 => ?_
  · simp only [ne_eq, Decidable.not_not] at h4
    rw [h4] at hname
    exact hname.2
  · rw [hc] at h1 h5 ⊢
    simp [startsWith_cons_cons] at h1 h5 ⊢
    grind
  · rcases declKeyword_spec s.rem with ⟨_, h⟩ | ⟨h, _, _⟩
    · exact h
    · omega
  · intro m hm
    have := (entityRef_iff s.rem m).1 hm
    omega
  refine ⟨⟨g1, by omega⟩, ?_⟩
  rcases Nat.eq_zero_or_pos (Ascii.length_if_not s.rem (fun c => isSpace c || c = c!">")) with hz | hz
  · right
    rw [e1, hz, List.drop_zero, hc]
    rw [hz, hc] at hl2
    have := hl2.2
    simp at this
    rw [hc] at hgt
    simp [startsWith_cons_cons] at hgt
    have : isSpace c = true := by
      rw [isSpace_iff]
      grind
    have := length_if_pos (p := isSpace) (s := c :: t) rfl this
    unfold matchWhitespace
    omega
  · left
    omega

theorem expectMarkupDecl_spec : ExpectsOr rules expectMarkupDecl fun _ => True := by
  intro env s g
  unfold expectMarkupDecl
  rw [wp_bind]
  refine wp_mono (or_spec expectComment_spec expectPI_spec env s g) ?_
  rintro _ s1 (⟨rfl, g1, h1⟩ | ⟨rfl, rfl, _⟩)
  · simp only [if_true]
    rw [wp_pure]
    exact Or.inl ⟨rfl, g1, h1⟩
  · simp only [Bool.false_eq_true, if_false]
    refine wp_mono (expectsOr_then (macro_spec (w := b!"<!") (by simp)) ?_ env s1 g) ?_
    · refine (expectName_spec (by simp) declStop_stops).seq fun _ => expectWhitespace_spec.seq fun _ => ?_
      have percent : Sure rules (fun _ => True) declPercent := by
        unfold declPercent
        refine (Sure.of_expectsOr (symbol_spec (by simp))).seq fun b => ?_
        split
        · exact expectWhitespace_spec.seq fun _ => .pure trivial
        · exact .pure trivial
      refine percent.seq fun _ => (expectName_spec (by simp) declStop_stops).seq fun _ =>
        expectWhitespace_spec.seq fun _ => ?_
      refine Sure.loop (P := fun _ => True) ?_ fun _ _ => .pure rfl
      intro _ env s g
      unfold declStep
      rw [wp_bind, wp_rem]
      split
      · rename_i h
        simp only [Bool.and_eq_true, Bool.not_eq_true', List.isEmpty_eq_false_iff] at h
        rw [wp_bind]
        refine wp_mono (declPart_spec g h.2 h.1) ?_
        rintro _ s2 ⟨hm, hp⟩
        rw [wp_bind]
        refine wp_mono (expectWhitespace_full hm.good) ?_
        rintro _ s3 ⟨g3, i3, _⟩
        rw [wp_pure]
        have := hm.le
        exact ⟨g3, by omega⟩
      · rw [wp_pure]
        exact ⟨trivial, .refl g⟩
    · rintro _ s2 (⟨rfl, h⟩ | ⟨rfl, h, _⟩)
      · exact Or.inl ⟨rfl, h⟩
      · exact Or.inr ⟨rfl, h, trivial⟩

theorem optValue_spec : Sure rules (fun _ => True) optValue := by
  intro env s g
  unfold optValue
  rw [wp_bind, wp_rem]
  split
  · exact (Sure.of_expectsOr expectValue_spec).seq (fun _ => .pure trivial) env s g
  · rw [wp_pure]
    exact ⟨trivial, .refl g⟩

theorem doctypeExternal_spec : Sure rules (fun _ => True) doctypeExternal := by
  intro env s g
  unfold doctypeExternal
  rw [wp_bind, wp_rem]
  split
  · exact expectExternalId_spec.seq (fun _ => .pure trivial) env s g
  rename_i h1
  split
  · rw [wp_pure]
    exact ⟨trivial, .refl g⟩
  rename_i h2
  have hl1 := (length_if_not_le s.rem isSpace 0 (by omega)).2
  have hl2 := length_if_not_longest s.rem isSpace (fun c => ¬ Space c) (by intro c; simp [← isSpace_iff]) 0 (by omega)
  simp only [List.drop_zero, Nat.sub_zero] at hl2
  rw [wp_bind]
  refine wp_step_advance g hl1 (Gap.word hl2 ?_ ?_) fun s1 g1 l1 e1 i1 x1 => ?_
  · intro h
    exact h2 (take_of_startsWith.2 h)
  · intro w hw
    rw [ne_eq, ← take_of_startsWith]
    unfold matchExternalId at h1
    simp only [List.mem_cons, List.not_mem_nil, or_false] at hw
    rcases hw with rfl | rfl <;> grind
  refine wp_mono (expectWhitespace_spec.seq (fun _ => optValue_spec.seq fun _ => expectWhitespace_spec.seq fun _ =>
    optValue_spec) env s1 g1) ?_
  rintro _ s2 ⟨_, h2⟩
  exact ⟨trivial, h2.good, by have := h2.le; omega⟩

theorem doctypeSubset_spec : Sure rules (fun _ => True) doctypeSubset := by
  unfold doctypeSubset
  refine (Sure.of_expectsOr (symbol_spec (by simp))).seq fun b => ?_
  split
  · refine expectWhitespace_spec.seq fun _ => Sure.loop (P := fun _ => True) ?_ fun _ _ => ?_
    · intro _ env s g
      unfold markupStep
      rw [wp_bind]
      refine wp_mono (expectMarkupDecl_spec env s g) ?_
      rintro _ s1 (⟨rfl, g1, h1⟩ | ⟨rfl, rfl, _⟩)
      · simp only [if_true]
        refine wp_mono (expectWhitespace_spec.seq (fun _ => (Sure.of_expectsOr (macro_spec (w := b!">") (by simp))).seq fun _ =>
          expectWhitespace_spec.seq fun _ => .pure (P := fun r => r = Sum.inl ()) rfl) env s1 g1) ?_
        rintro _ s2 ⟨rfl, h2⟩
        exact ⟨h2.good, by have := h2.le; omega⟩
      · simp only [Bool.false_eq_true, if_false]
        rw [wp_pure]
        exact ⟨trivial, .refl g⟩
    · refine (Sure.of_expectsOr (symbol_spec (by simp))).seq fun b => ?_
      split
      · exact expectWhitespace_spec.seq fun _ => (Sure.of_expectsOr (macro_spec (by simp))).seq fun _ => .pure trivial
      · exact .pure trivial
  · exact .pure trivial

theorem expectDoctype_spec : ExpectsOr rules expectDoctype fun s => s.rem.take 2 ≠ b!"<!" := by
  unfold expectDoctype
  refine expectsOr_then (macro_spec (w := b!"<!") (by simp)) ?_
  exact (expectName_spec (by simp) doctypeStop_stops).seq fun _ => expectWhitespace_spec.seq fun _ =>
    (expectName_spec (by simp) doctypeStop_stops).seq fun _ => expectWhitespace_spec.seq fun _ =>
    doctypeExternal_spec.seq fun _ => expectWhitespace_spec.seq fun _ => doctypeSubset_spec.seq fun _ => .pure rfl

/-! ## The XML declaration -/

theorem highlightNumber_spec : Sure rules (fun _ => True) highlightNumber := by
  intro env s g
  unfold highlightNumber
  rw [wp_bind, wp_rem]
  dsimp only
  have hl := g.len
  have key : (matchCommonNumber s.rem {}).integer + (matchCommonNumber s.rem {}).radixPoint +
      (matchCommonNumber s.rem {}).fractional ≤ s.rem.length ∧
      (∀ c ∈ s.rem.take (matchCommonNumber s.rem {}).integer, DecDigit c) ∧
      (0 < (matchCommonNumber s.rem {}).radixPoint →
        (s.rem.drop (matchCommonNumber s.rem {}).integer).take (matchCommonNumber s.rem {}).radixPoint = b!".") ∧
      ∀ c ∈ ((s.rem.drop (matchCommonNumber s.rem {}).integer).drop (matchCommonNumber s.rem {}).radixPoint).take
        (matchCommonNumber s.rem {}).fractional, DecDigit c := by
    rcases C23_parts s.rem {} (by simp) with h | ⟨p, h⟩
    · rw [h]
      simp
    · rw [h.integer, h.point, h.fraction]
      obtain ⟨rest, hr⟩ := h.text
      have hs : p.sign = [] := by
        have := h.signOk
        simpa using this
      have hp : p.pre = [] ∧ (∀ c ∈ p.integer, DecDigit c) ∧ ∀ c ∈ p.fraction, DecDigit c := by
        have d10 : ∀ c, NumDigit {} 10 c → DecDigit c := by
          intro c hc
          rcases hc with hc | hc
          · revert hc
            unfold DecDigit
            revert c
            apply forall_byte
            decide +kernel
          · simp at hc
        obtain ⟨base, hb, h1, h2⟩ := h.digitsOk
        simp at hb
        obtain ⟨hb1, rfl⟩ := hb
        exact ⟨hb1, fun c hc => d10 c (h1 c hc), fun c hc => d10 c (h2 c hc)⟩
      have he : s.rem = p.integer ++ (p.point ++ (p.fraction ++ (p.expSep ++ (p.expDigits ++ (p.suffix ++ rest))))) := by
        rw [hr]
        simp [NumberParts.text, hs, hp.1]
      rw [he]
      refine ⟨by simp; omega, by simpa using hp.2.1, fun h0 => ?_, by simpa using hp.2.2⟩
      rcases h.pointOk with ⟨h1, h2⟩ | h1
      · simp [h1] at h0
      · simp [h1]
  generalize matchCommonNumber s.rem {} = m at key
  obtain ⟨k1, k2, k3, k4⟩ := key
  rw [wp_bind]
  refine wp_step_emitAdvIf g (by omega) (by simp) (fun _ => Tok.number k2) fun s1 g1 l1 e1 i1 x1 => ?_
  rw [wp_bind]
  refine wp_step_emitAdvIf g1 (by omega) (by simp) (fun h => Tok.symbol (by rw [e1, k3 h]; decide)) fun s2 g2 l2 e2 i2 x2 => ?_
  refine wp_step_emitAdvIf g2 (by omega) (by simp) (fun _ => Tok.number (by rw [e2, e1]; exact k4)) fun s3 g3 l3 e3 i3 x3 => ?_
  exact ⟨trivial, g3, by omega⟩

theorem declAttr_spec {name : Bytes} {value : HM Unit Unit} (hn : name ∈ [b!"version", b!"encoding", b!"standalone"])
    (hv : Sure rules (fun _ => True) value) : Sure rules (fun _ => True) (declAttr name value) := by
  unfold declAttr
  have : Expects rules (expectLit name .markup_attr) := by
    intro env s g
    refine wp_mono (expectLit_spec (w := name) (by rintro rfl; revert hn; decide) (by simp)
      (fun s h => Tok.attribute (by rw [h]; exact hn)) env s g) ?_
    rintro _ s1 (h | ⟨h1, h2, _⟩)
    · exact Or.inl h
    · exact Or.inr ⟨h1, h2⟩
  refine (Sure.of_expects this).seq fun b => ?_
  split
  · refine (Sure.of_expectsOr (symbol_spec (by simp))).seq fun b => ?_
    split
    · intro env s g
      rw [wp_bind, wp_rem]
      split
      · rw [wp_pure]
        exact ⟨trivial, .refl g⟩
      · exact hv env s g
    · exact .pure trivial
  · exact .pure trivial

theorem expectString_spec : Sure rules (fun _ => True) expectString :=
  (Sure.of_expectsOr expectValue_spec).seq fun _ => .pure trivial

theorem expectXmlDecl_spec : ExpectsOr rules expectXmlDecl fun s => s.rem.take 5 ≠ b!"<?xml" := by
  unfold expectXmlDecl
  refine expectsOr_then (macro_spec (w := b!"<?xml") (by simp)) ?_
  exact expectWhitespace_spec.seq fun _ => (declAttr_spec (by simp) highlightNumber_spec).seq fun _ =>
    expectWhitespace_spec.seq fun _ => (declAttr_spec (by simp) expectString_spec).seq fun _ =>
    expectWhitespace_spec.seq fun _ => (declAttr_spec (by simp) expectString_spec).seq fun _ =>
    expectWhitespace_spec.seq fun _ => (Sure.of_expectsOr (macro_spec (by simp))).seq fun _ => .pure rfl

theorem expectProlog_spec : Sure rules (fun _ => True) expectProlog := by
  unfold expectProlog
  refine (Sure.of_expectsOr expectXmlDecl_spec).seq fun _ => Sure.loop (P := fun _ => True) ?_ fun _ _ =>
    (Sure.of_expectsOr expectDoctype_spec).seq fun _ => .pure trivial
  intro _ env s g
  unfold prologStep
  rw [wp_bind]
  refine wp_step_or (wp_mono (or_spec expectPI_spec expectComment_spec env s g) ?_)
  rintro _ s1 (⟨rfl, g1, h1⟩ | ⟨rfl, rfl, _⟩)
  · simp only [if_true]
    rw [wp_pure]
    exact ⟨g1, h1⟩
  · simp only [Bool.false_eq_true, if_false]
    refine wp_mono (expectWhitespace_full g) ?_
    rintro b s2 ⟨g2, i2, _, rfl⟩
    split
    · rename_i h
      rw [wp_pure]
      simp at h
      exact ⟨g2, by omega⟩
    · rw [wp_pure]
      exact ⟨trivial, g2, by omega⟩

/-! ## The main loop -/

theorem step_spec (g : Good rules env s) (hne : s.rem ≠ []) :
    wp step (fun _ s' => Good rules env s' ∧ s.idx < s'.idx) env s := by
  unfold step
  rw [wp_bind]
  refine wp_step_or (wp_mono (expectComment_spec env s g) ?_)
  rintro _ s1 (⟨rfl, g1, h1⟩ | ⟨rfl, rfl, hcomment⟩)
  · simpa [wp_pure] using ⟨g1, h1⟩
  simp only [Bool.false_eq_true, if_false]
  refine wp_step_or (wp_mono (expectCData_spec env s1 g) ?_)
  rintro _ s1 (⟨rfl, g1, h1⟩ | ⟨rfl, rfl, hcdata⟩)
  · simpa [wp_pure] using ⟨g1, h1⟩
  simp only [Bool.false_eq_true, if_false]
  refine wp_step_or (wp_mono (expectPI_spec env s1 g) ?_)
  rintro _ s1 (⟨rfl, g1, h1⟩ | ⟨rfl, rfl, hpi⟩)
  · simpa [wp_pure] using ⟨g1, h1⟩
  simp only [Bool.false_eq_true, if_false]
  refine wp_step_or (wp_mono (expectEndTag_spec env s1 g) ?_)
  rintro _ s1 (⟨rfl, g1, h1⟩ | ⟨rfl, rfl, hend⟩)
  · simpa [wp_pure] using ⟨g1, h1⟩
  simp only [Bool.false_eq_true, if_false]
  refine wp_step_or (wp_mono (expectStartTag_spec g ?_) ?_)
  · simp
    exact ⟨by simpa using hcomment, by simpa using hcdata, by simpa using hpi, by simpa using hend⟩
  rintro _ s1 (⟨rfl, g1, h1⟩ | ⟨rfl, rfl, hopen⟩)
  · simpa [wp_pure] using ⟨g1, h1⟩
  simp only [Bool.false_eq_true, if_false]
  refine wp_mono (expectText_spec g hne) ?_
  rintro _ s2 ⟨rfl, g2, h2⟩
  simpa [wp_pure] using ⟨g2, h2⟩

theorem highlight_tiles (debug : Bool) (opts : Opts) (src : Bytes) :
    ∃ es, highlight debug opts src = .ok (true, es) ∧ Tiles rules src src.length (es.map Emit.token) := by
  have := run_of_wp (m := run) (ext := ()) (R := rules) (debug := debug) (opts := opts) (src := src)
    (P := (· = true)) ?_
  · obtain ⟨good, es, h1, rfl, h2⟩ := this
    exact ⟨es, h1, h2⟩
  · intro s g hr hi _
    unfold run
    rw [wp_bind]
    refine wp_mono (expectProlog_spec _ s g) ?_
    rintro _ s1 ⟨_, h1⟩
    rw [wp_bind, wp_rem, wp_bind]
    refine wp_while_moved (R := rules) (fun _ => True) ?_ h1.good trivial (by omega) ?_
    · intro s2 g2 l2 i2 hne _
      refine wp_mono (step_spec g2 hne) ?_
      rintro _ s3 ⟨g3, h3⟩
      exact ⟨g3, h3, trivial⟩
    · intro s2 g2 l2 i2 h2 _
      rw [wp_pure]
      exact ⟨g2, h2, rfl⟩

/-- Every token of an XML file is what its type says, and so is the text without tokens. -/
theorem C49_xml_tokens (debug : Bool) (opts : Opts) (src : Bytes) :
    ∃ es, highlight debug opts src = .ok (true, es) ∧ Tiles rules src src.length (es.map Emit.token) :=
  highlight_tiles debug opts src

/-- What is highlighted. -/
def tokensOf (src : Bytes) : Except Fault (List Token) :=
  (highlight true {} src).map (fun r => r.2.map Emit.token)

instance : DecidableEq (Except Fault (List Token)) := Html.instDecidableEqExceptFaultListToken

example : tokensOf b!"<?xml version=1.0 encoding=\"utf-8\"?>\n<!-- c --><a:b x = \"1&lt;2\"/>t&amp;<![CDATA[x]]></a>" =
    .ok [⟨0, 5, .name_macro⟩, ⟨6, 7, .markup_attr⟩, ⟨13, 1, .symbol_punc⟩, ⟨14, 1, .number⟩, ⟨15, 1, .symbol_punc⟩,
      ⟨16, 1, .number⟩, ⟨18, 8, .markup_attr⟩, ⟨26, 1, .symbol_punc⟩, ⟨27, 1, .string_delim⟩, ⟨28, 5, .string⟩,
      ⟨33, 1, .string_delim⟩, ⟨34, 2, .name_macro⟩, ⟨37, 4, .comment_delim⟩, ⟨41, 3, .comment⟩,
      ⟨44, 3, .comment_delim⟩, ⟨47, 1, .symbol_punc⟩, ⟨48, 3, .markup_tag⟩, ⟨52, 1, .markup_attr⟩,
      ⟨54, 1, .symbol_punc⟩, ⟨56, 1, .string_delim⟩, ⟨57, 1, .string⟩, ⟨58, 4, .string_escape⟩, ⟨62, 1, .string⟩,
      ⟨63, 1, .string_delim⟩, ⟨64, 2, .symbol_punc⟩, ⟨67, 5, .string_escape⟩, ⟨72, 9, .name_macro⟩,
      ⟨82, 3, .name_macro⟩, ⟨85, 2, .symbol_punc⟩, ⟨87, 1, .markup_tag⟩, ⟨88, 1, .symbol_punc⟩] := by decide +kernel

example : tokensOf b!"<!DOCTYPE a [<!ATTLIST a b CDATA #IMPLIED><!ENTITY c \"d\">]><a/>" =
    .ok [⟨0, 2, .name_macro⟩, ⟨2, 7, .name_macro⟩, ⟨10, 1, .name⟩, ⟨12, 1, .symbol_punc⟩, ⟨13, 2, .name_macro⟩,
      ⟨15, 7, .name_macro⟩, ⟨23, 1, .name⟩, ⟨25, 1, .name⟩, ⟨27, 5, .keyword⟩, ⟨33, 8, .keyword⟩,
      ⟨41, 1, .name_macro⟩, ⟨42, 2, .name_macro⟩, ⟨44, 6, .name_macro⟩, ⟨51, 1, .name⟩, ⟨53, 1, .string_delim⟩,
      ⟨54, 1, .string⟩, ⟨55, 1, .string_delim⟩, ⟨56, 1, .name_macro⟩, ⟨57, 1, .symbol_punc⟩, ⟨58, 1, .name_macro⟩,
      ⟨59, 1, .symbol_punc⟩, ⟨60, 1, .markup_tag⟩, ⟨61, 2, .symbol_punc⟩] := by decide +kernel

/-- Well-formed XML that is not highlighted as it should be.
* A hyphen in a name is an error.
* The version number in quotation marks is not highlighted, and neither is the rest of the declaration.
* After a document type declaration without brackets, a whole element is skipped.
* The end of a name that begins with a keyword is another name.
* `xml` in the content of a processing instruction ends it.

And something that is not well-formed: a reference without a name is highlighted like others. -/
theorem C49_differences :
    tokensOf b!"<my-tag>" = .ok [⟨0, 1, .symbol_punc⟩, ⟨1, 2, .markup_tag⟩, ⟨3, 1, .error⟩, ⟨4, 3, .markup_tag⟩,
      ⟨7, 1, .symbol_punc⟩] ∧
    tokensOf b!"<?xml version=\"1.0\"?><a/>" = .ok [⟨0, 5, .name_macro⟩, ⟨6, 7, .markup_attr⟩, ⟨13, 1, .symbol_punc⟩,
      ⟨21, 1, .symbol_punc⟩, ⟨22, 1, .markup_tag⟩, ⟨23, 2, .symbol_punc⟩] ∧
    tokensOf b!"<!DOCTYPE html><a></a> <b/>" = .ok [⟨0, 2, .name_macro⟩, ⟨2, 7, .name_macro⟩, ⟨10, 4, .name⟩,
      ⟨23, 1, .symbol_punc⟩, ⟨24, 1, .markup_tag⟩, ⟨25, 2, .symbol_punc⟩] ∧
    tokensOf b!"<!DOCTYPE a [<!ELEMENT a EMPTYX>]>" = .ok [⟨0, 2, .name_macro⟩, ⟨2, 7, .name_macro⟩, ⟨10, 1, .name⟩,
      ⟨12, 1, .symbol_punc⟩, ⟨13, 2, .name_macro⟩, ⟨15, 7, .name_macro⟩, ⟨23, 1, .name⟩, ⟨25, 5, .keyword⟩,
      ⟨30, 1, .name⟩, ⟨31, 1, .name_macro⟩, ⟨32, 1, .symbol_punc⟩, ⟨33, 1, .name_macro⟩] ∧
    tokensOf b!"<?target xml <b>?>" = .ok [⟨0, 2, .symbol_punc⟩, ⟨2, 6, .name_macro⟩, ⟨13, 1, .symbol_punc⟩,
      ⟨14, 1, .markup_tag⟩, ⟨15, 1, .symbol_punc⟩] ∧
    tokensOf b!"<!DOCTYPE a [<!ELEMENT a &;>]>" = .ok [⟨0, 2, .name_macro⟩, ⟨2, 7, .name_macro⟩, ⟨10, 1, .name⟩,
      ⟨12, 1, .symbol_punc⟩, ⟨13, 2, .name_macro⟩, ⟨15, 7, .name_macro⟩, ⟨23, 1, .name⟩, ⟨25, 2, .string_escape⟩,
      ⟨27, 1, .name_macro⟩, ⟨28, 1, .symbol_punc⟩, ⟨29, 1, .name_macro⟩] := by
  refine ⟨by decide +kernel, by decide +kernel, by decide +kernel, by decide +kernel, by decide +kernel, by decide +kernel⟩

/-- `<×>`: a character is cut. -/
theorem C31_xml_splits : IsUtf8 [0x3C, 0xC3, 0x97, 0x3E] ∧
    tokensOf [0x3C, 0xC3, 0x97, 0x3E] =
      .ok [⟨0, 1, .symbol_punc⟩, ⟨1, 1, .error⟩, ⟨2, 1, .markup_tag⟩, ⟨3, 1, .symbol_punc⟩] ∧
    ¬ IsUtf8 (([0x3C, 0xC3, 0x97, 0x3E].drop 1).take 1) := by
  exact ⟨⟨[0x3C, 0xD7, 0x3E], by simp [IsScalar], by decide +kernel⟩, by decide +kernel, not_isUtf8_one (by decide)⟩

end Xml

end Ulight
