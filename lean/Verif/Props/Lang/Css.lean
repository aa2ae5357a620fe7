import Verif.Hl.Whole
import Verif.Lang.Css
import Verif.Spec.Lang.Css

/-!
# CSS: every token says something true about its text
-/

namespace Ulight.Css

open Spec Spec.Css Utf8

variable {env : HEnv} {s : HS Ext}

theorem space_iff (c : UInt8) : isHtmlWhitespace c = true ↔ Space c := by
  revert c; apply forall_byte; unfold Space; decide +kernel

theorem newline_iff (c : UInt8) : isNewline c = true ↔ Newline c := by
  revert c; apply forall_byte; unfold Newline; decide +kernel

theorem isId_iff (c : UInt8) : isId c = true ↔ IdChar c := by
  simp [isId, isIdStart, IdChar, isAlpha_iff, isDigit_iff, or_assoc]
  grind

theorem idChar_ascii {c : UInt8} (h : IdChar c) : c.toNat < 0x80 := by
  rcases h with h | h | rfl | rfl
  · unfold Letter at h; omega
  · unfold DecDigit at h; omega
  · decide
  · decide

theorem hex_iff (c : UInt8) : isHexDigit c = true ↔ HexDigit c := by
  revert c; apply forall_byte; unfold HexDigit
  intro n hn
  have e (o : Option Nat) : (∃ v, o = some v ∧ v < 16) ↔ o.any (· < 16) = true := by
    cases o <;> simp
  rw [e]
  clear e
  revert n
  decide +kernel

theorem hex_ascii {c : UInt8} (h : HexDigit c) : c.toNat < 0x80 :=
  digit_ascii (N := { base := 16 }) h

/-! ## Whole characters -/

theorem escape_whole {t : Bytes} {n : Nat} (h : Spec.Css.Escape t n) : Whole t n := by
  cases h with
  | hex h0 pos six le digits =>
    refine .ascii ?_
    match t, h0 with
    | a :: t, h0 =>
      simp at h0 digits
      subst h0
      intro c hc
      rw [Nat.add_comm, List.take_succ_cons, List.mem_cons] at hc
      rcases hc with rfl | hc
      · decide
      · exact hex_ascii (digits c hc)
  | hexSpace h0 pos six digits space hc =>
    refine .after space ?_
    simp only [Space, List.mem_cons, List.not_mem_nil, or_false] at hc
    rcases hc with rfl | rfl | rfl | rfl | rfl <;> decide
  | char h =>
    refine (Whole.text (w := b!"\\") (n := 1) rfl (by decide)).add ?_
    exact .char h
  | end_ => exact .all (by simp)

theorem symbols_ascii : ∀ e ∈ Spec.Css.symbols, ∀ c ∈ e.1, c.toNat < 0x80 := by decide +kernel

theorem number_ascii {w : Bytes} (h : Number w) : ∀ c ∈ w, c.toNat < 0x80 := by
  obtain ⟨sign, int, frac, exp, rfl, h1, h2, h3, h4, _⟩ := h.parts
  have d : ∀ c, DecDigit c → c.toNat < 0x80 := by intro c hc; unfold DecDigit at hc; omega
  have sg : ∀ w : Bytes, w = [] ∨ w = b!"+" ∨ w = b!"-" → ∀ c ∈ w, c.toNat < 0x80 := by
    rintro w (rfl | rfl | rfl) <;> decide
  intro c hc
  simp only [List.mem_append] at hc
  rcases hc with ((hc | hc) | hc) | hc
  · exact sg _ h1 c hc
  · exact d c (h2 c hc)
  · rcases h3 with rfl | ⟨ds, rfl, _, h⟩
    · simp at hc
    · simp only [List.mem_cons] at hc
      rcases hc with rfl | hc
      · decide
      · exact d c (h c hc)
  · rcases h4 with rfl | ⟨e, sgn, ds, rfl, he, hs, _, h⟩
    · simp at hc
    · simp only [List.mem_cons, List.mem_append] at hc
      rcases hc with rfl | hc | hc
      · rcases he with rfl | rfl <;> decide
      · exact sg _ hs c hc
      · exact d c (h c hc)

theorem piece_whole {b : Nat} {q : UInt8} {t : Bytes} {n : Nat} (hq : q ∈ b!"'\"") (h : Piece b q t n) :
    Whole t n := by
  have hq' : q.toNat < 0x80 := by simp at hq; rcases hq with rfl | rfl <;> decide
  obtain ⟨k, ⟨_, h⟩, ⟨h1, rfl⟩ | ⟨h1, rfl⟩⟩ := h
  · exact .after h1 hq'
  · cases hc : t[b + k]? with
    | none => exact .all (by simpa using hc)
    | some c =>
      refine .at hc ?_
      have := h c (by rw [List.getElem?_drop]; exact hc)
      by_cases h2 : c = q
      · exact h2 ▸ hq'
      by_cases h3 : Newline c
      · simp only [Newline, List.mem_cons, List.not_mem_nil, or_false] at h3
        rcases h3 with rfl | rfl | rfl <;> decide
      by_cases h4 : c = c!"\\"
      · subst h4; decide
      exact absurd ⟨h2, h3, h4⟩ this

theorem space_ascii {c : UInt8} (h : Space c) : c.toNat < 0x80 := by
  simp only [Space, List.mem_cons, List.not_mem_nil, or_false] at h
  rcases h with rfl | rfl | rfl | rfl | rfl <;> decide

theorem lower_ascii {c : UInt8} (h : (lower c).toNat < 0x80) : c.toNat < 0x80 := by
  revert c; apply forall_byte; unfold lower; decide +kernel

theorem rules_whole : rules.Whole where
  tok := by
    intro s n ty h hn
    cases h with
    | symbol h => exact .ascii (symbols_ascii _ h)
    | comment h => exact .upTo (by decide) h
    | ident h => exact .ascii fun c hc => idChar_ascii (h c hc)
    | function h => exact .ascii fun c hc => idChar_ascii (h c hc)
    | number h => exact .ascii (number_ascii h)
    | string hq _ h => exact piece_whole hq h
    | more hq h => exact piece_whole hq h
    | escape h => exact escape_whole h
    | important h hs hw =>
      refine .text h ?_
      intro c hc
      simp only [List.mem_append] at hc
      rcases hc with (hc | hc) | hc
      · simp at hc; subst hc; decide
      · exact space_ascii (hs c hc)
      · apply lower_ascii
        have : lower c ∈ b!"important" := by rw [← hw]; exact List.mem_map_of_mem hc
        exact (by decide : ∀ c ∈ b!"important", c.toNat < 0x80) _ this
    | sign h => rcases h with h | h <;> exact .text h (by decide)
    | at_ h => exact .text h (by decide)
    | backslash h => exact .text h (by decide)
  gap := by
    intro s n h hn
    cases h with
    | space h => exact .ascii fun c hc => space_ascii (h c hc)
    | ascii c h hc => exact .after (n := 0) h hc
    | other h => exact .char h

/-! ## Matching -/

theorem validEscape_facts {t : Bytes} (h : startsWithValidEscape t = true) :
    ∃ b u, t = c!"\\" :: b :: u ∧ ¬ Newline b := by
  unfold startsWithValidEscape at h
  split at h
  · rename_i a b u
    simp only [Bool.and_eq_true, decide_eq_true_eq, Bool.not_eq_true', ← Bool.not_eq_true, newline_iff] at h
    exact ⟨b, u, by rw [h.1], h.2⟩
  · simp at h

theorem takeWhile_length_le {p : UInt8 → Bool} {t : Bytes} {n : Nat} :
    ((t.take n).takeWhile p).length ≤ n ∧ ((t.take n).takeWhile p).length ≤ t.length := by
  have := (List.takeWhile_sublist p (l := t.take n)).length_le
  simp at this
  omega

/-- The escape at the beginning of well-formed text. -/
theorem escaped_facts {t : Bytes} (h0 : t[0]? = some c!"\\") (hu : IsUtf8 t) :
    matchEscapedCodePoint (t.drop 1) + 1 ≤ t.length ∧ Spec.Css.Escape t (matchEscapedCodePoint (t.drop 1) + 1) := by
  match t, h0 with
  | a :: u, h0 =>
    simp only [List.getElem?_cons_zero, Option.some.injEq] at h0
    subst h0
    simp only [List.drop_succ_cons, List.drop_zero, List.length_cons]
    match u with
    | [] => simp [matchEscapedCodePoint]; exact .end_
    | b :: u =>
      have hu' : IsUtf8 (b :: u) := (isUtf8_cons_iff (p := [c!"\\"]) (.one _ (by decide))).1 hu
      unfold matchEscapedCodePoint
      simp only
      have hl := takeWhile_longest isHexDigit HexDigit hex_iff ((b :: u).take 6)
      have hle := @takeWhile_length_le isHexDigit (b :: u) 6
      generalize hk : (((b :: u).take 6).takeWhile isHexDigit).length = k at *
      split
      · rename_i hk0
        have digits : ∀ c ∈ ((c!"\\" :: b :: u).drop 1).take k, HexDigit c := by
          have := hl.1
          rw [List.take_take, Nat.min_eq_left hle.1] at this
          exact this
        split
        · rename_i c hc
          split
          · rename_i hs
            have hlt := (List.getElem?_eq_some_iff.1 hc).1
            refine ⟨by omega, ?_⟩
            rw [show k + 1 + 1 = 1 + k + 1 by omega]
            exact .hexSpace rfl (by omega) hle.1 digits (by rw [Nat.add_comm]; exact hc)
              ((space_iff c).1 hs)
          · rename_i hs
            have hlt := (List.getElem?_eq_some_iff.1 hc).1
            refine ⟨by omega, ?_⟩
            rw [show k + 1 = 1 + k by omega]
            refine .hex rfl (by omega) hle.1 (by simp at hlt ⊢; omega) digits ?_ ?_
            · by_cases h6 : k = 6
              · exact Or.inl h6
              · right
                intro c' hc'
                refine hl.2 c' ?_
                rw [Nat.add_comm, List.getElem?_cons_succ] at hc'
                rw [List.getElem?_take_of_lt (by omega)]
                exact hc'
            · intro c' hc'
              rw [Nat.add_comm, List.getElem?_cons_succ, hc] at hc'
              cases hc'
              rwa [← space_iff]
        · rename_i hc
          have hlt : (b :: u).length ≤ k := by simpa using hc
          refine ⟨by omega, ?_⟩
          rw [show k + 1 = 1 + k by omega]
          refine .hex rfl (by omega) hle.1 (by simp at hle ⊢; omega) digits ?_ ?_
          · right
            intro c' hc'
            rw [Nat.add_comm, List.getElem?_cons_succ, hc] at hc'
            simp at hc'
          · intro c' hc'
            rw [Nat.add_comm, List.getElem?_cons_succ, hc] at hc'
            simp at hc'
      · rename_i hk0
        have hk0 : k = 0 := by omega
        subst hk0
        obtain ⟨c, p, rest, hs, hf, hlen, hp0, hp1⟩ := isUtf8_sequence hu'
        rw [hlen]
        refine ⟨by simp at hp1 ⊢; omega, ?_⟩
        rw [Nat.add_comm, hs]
        refine .char hf ?_
        intro d hd
        refine hl.2 d ?_
        rw [List.getElem?_take_of_lt (by omega), hs, List.getElem?_append_left hp0]
        exact hd

theorem identLoop_fuel (f : Nat) : ∀ (g : Nat) (t : Bytes), t.length ≤ f → t.length ≤ g →
    identLoop f t = identLoop g t := by
  induction f with
  | zero =>
    intro g t h1 h2
    obtain rfl := List.length_eq_zero_iff.1 (Nat.le_zero.1 h1)
    cases g <;> rfl
  | succ f ih =>
    intro g t h1 h2
    match t, g with
    | [], 0 => rfl
    | [], g + 1 => rfl
    | c :: t, g + 1 =>
      simp at h1 h2
      unfold identLoop
      simp only
      split
      · rw [ih g]
        · rw [Nat.add_comm, List.drop_succ_cons, List.length_drop]; omega
        · rw [Nat.add_comm, List.drop_succ_cons, List.length_drop]; omega
      · split
        · rw [ih g]
          · simpa using h1
          · simpa using h2
        · rfl

theorem ident_escape {t : Bytes} (h : startsWithValidEscape t = true) :
    matchIdentSequence t = (matchEscapedCodePoint (t.drop 1) + 1) +
      matchIdentSequence (t.drop (matchEscapedCodePoint (t.drop 1) + 1)) := by
  match t with
  | c :: t =>
    conv => lhs; unfold matchIdentSequence
    simp only [List.length_cons]
    unfold identLoop
    simp only [h, if_true]
    rw [identLoop_fuel _ (List.drop (1 + matchEscapedCodePoint (List.drop 1 (c :: t))) (c :: t)).length _ _
      (Nat.le_refl _)]
    · rw [Nat.add_comm 1]; rfl
    · rw [Nat.add_comm, List.drop_succ_cons, List.length_drop]; omega

theorem ident_char {c : UInt8} {t : Bytes} (h : isId c = true) :
    matchIdentSequence (c :: t) = 1 + matchIdentSequence t := by
  have h' : startsWithValidEscape (c :: t) = false := by
    rw [Bool.eq_false_iff]
    intro he
    obtain ⟨b, u, he, _⟩ := validEscape_facts he
    simp at he
    rw [he.1] at h
    revert h; decide
  unfold matchIdentSequence
  simp only [List.length_cons]
  conv => lhs; unfold identLoop
  simp [h', h]

theorem ident_chars {t : Bytes} {n : Nat} (hn : n ≤ t.length) (h : ∀ c ∈ t.take n, IdChar c) :
    matchIdentSequence t = n + matchIdentSequence (t.drop n) := by
  induction n generalizing t with
  | zero => simp
  | succ n ih =>
    match t, hn with
    | c :: t, hn =>
      rw [ident_char ((isId_iff c).2 (h c (by simp)))]
      simp at hn
      rw [ih hn (fun x hx => h x (by simp [hx]))]
      simp
      omega

theorem ident_stop {c : UInt8} {t : Bytes} (h : isId c = false) (h' : startsWithValidEscape (c :: t) = false) :
    matchIdentSequence (c :: t) = 0 := by
  unfold matchIdentSequence
  simp only [List.length_cons]
  conv => lhs; unfold identLoop
  simp [h', h]

theorem ident_facts {t : Bytes} (hu : IsUtf8 t) :
    matchIdentSequence t ≤ t.length ∧ Ident t (matchIdentSequence t) := by
  induction hn : t.length using Nat.strongRecOn generalizing t with
  | _ n ih =>
    subst hn
    match t with
    | [] => exact ⟨by simp [matchIdentSequence, identLoop], .nil⟩
    | c :: t =>
      by_cases h : startsWithValidEscape (c :: t) = true
      · obtain ⟨b, u, he, hb⟩ := validEscape_facts h
        have h0 : (c :: t)[0]? = some c!"\\" := by rw [he]; rfl
        have := escaped_facts h0 hu
        rw [ident_escape h]
        have hd : ((c :: t).drop (matchEscapedCodePoint ((c :: t).drop 1) + 1)).length < (c :: t).length := by
          rw [List.length_drop, List.length_cons]; omega
        have h2 := ih _ hd (escape_whole this.2 hu).2 rfl
        rw [List.length_drop] at h2
        exact ⟨by omega, .escape this.2 h2.2⟩
      · have h : startsWithValidEscape (c :: t) = false := by simpa using h
        by_cases hc : isId c = true
        · rw [ident_char hc]
          have h2 := ih t.length (by simp)
            ((isUtf8_cons_iff (p := [c]) (.one c (idChar_ascii ((isId_iff c).1 hc)))).1 hu) rfl
          exact ⟨by simp; omega, .char ((isId_iff c).1 hc) h2.2⟩
        · rw [ident_stop (by simpa using hc) h]
          exact ⟨by simp, .nil⟩

theorem identLike_facts {t : Bytes} (hu : IsUtf8 t) :
    ∃ r, matchIdentLike t = .ok r ∧ r.1 = matchIdentSequence t ∧ (r.2 = .ident ∨
      r.2 = .function ∧ t[matchIdentSequence t]? = some c!"(") := by
  have h := ident_facts hu
  unfold matchIdentLike
  simp only
  rw [if_neg (by omega)]
  split
  · exact ⟨_, rfl, rfl, Or.inl rfl⟩
  · rename_i c hc
    split
    · exact ⟨_, rfl, rfl, Or.inl rfl⟩
    · rename_i hp
      simp at hp
      subst hp
      rw [if_neg]
      · exact ⟨_, rfl, rfl, Or.inr ⟨rfl, hc⟩⟩
      · rw [List.drop_eq_getElem_cons (List.getElem?_eq_some_iff.1 hc).1, (List.getElem?_eq_some_iff.1 hc).2]
        intro h
        unfold Ascii.equalsIgnoreCase at h
        split at h
        · simp at h
        · simp [Ascii.sameIgnoringCase] at h
          exact absurd h.1 (by decide)

theorem startsWithIdent_ne {t : Bytes} (h : startsWithIdent t = true) : matchIdentSequence t ≠ 0 := by
  match t with
  | a :: t =>
    by_cases hv : startsWithValidEscape (a :: t) = true
    · rw [ident_escape hv]; omega
    · have : isId a = true := by
        simp only [startsWithIdent, hv] at h
        split at h
        · subst_vars; decide
        · simp at h; simp [isId, h]
      rw [ident_char this]; omega

/-! ### Numbers -/

theorem digitsFrom_facts {t : Bytes} {k : Nat} (hk : k ≤ t.length) :
    ∃ ds, k ≤ digitsFrom t k ∧ digitsFrom t k ≤ t.length ∧ t.take (digitsFrom t k) = t.take k ++ ds ∧
      ds.length = digitsFrom t k - k ∧
      (∀ c ∈ ds, DecDigit c) ∧ ∀ c, t[digitsFrom t k]? = some c → ¬ DecDigit c := by
  have hl := takeWhile_longest isDigit DecDigit isDigit_iff (t.drop k)
  have hp := List.takeWhile_prefix isDigit (l := t.drop k)
  unfold digitsFrom
  have := hp.length_le
  rw [List.length_drop] at this
  refine ⟨(t.drop k).takeWhile isDigit, by omega, by omega, ?_, by omega, ?_, ?_⟩
  · rw [List.take_add, ← List.prefix_iff_eq_take.1 hp]
  · have := hl.1
    rw [← List.prefix_iff_eq_take.1 hp] at this
    exact this
  · intro c hc
    exact hl.2 c (by rw [List.getElem?_drop]; exact hc)

theorem digitsFrom_pos {t : Bytes} {k : Nat} {c : UInt8} (h : t[k]? = some c) (hc : DecDigit c) :
    k < digitsFrom t k := by
  have hk := (List.getElem?_eq_some_iff.1 h).1
  obtain ⟨ds, h1, h2, h3, h4, h5, h6⟩ := digitsFrom_facts (t := t) (k := k) (by omega)
  rcases Nat.lt_or_ge k (digitsFrom t k) with h' | h'
  · exact h'
  · have : digitsFrom t k = k := by omega
    rw [this] at h6
    exact absurd hc (h6 c h)

theorem take_succ_of {t : Bytes} {k : Nat} {c : UInt8} (h : t[k]? = some c) :
    t.take (k + 1) = t.take k ++ [c] := by
  rw [List.take_add_one, h]; rfl

theorem fraction_facts {t : Bytes} {k : Nat} (hk : k ≤ t.length)
    (hd : ∀ c, t[k]? = some c → ¬ DecDigit c) :
    ∃ frac, k ≤ numberFraction t k ∧ numberFraction t k ≤ t.length ∧
      t.take (numberFraction t k) = t.take k ++ frac ∧ 
      (frac = [] ∨ ∃ ds, frac = c!"." :: ds ∧ ds ≠ [] ∧ ∀ c ∈ ds, DecDigit c) ∧
      (numberFraction t k = k → ∀ b, t[k]? = some c!"." → t[k + 1]? = some b → ¬ DecDigit b) ∧
      ∀ c, t[numberFraction t k]? = some c → ¬ DecDigit c := by
  unfold numberFraction
  split
  · rename_i a b h1 h2
    split
    · rename_i h
      simp only [Bool.and_eq_true, decide_eq_true_eq, isDigit_iff] at h
      obtain ⟨rfl, hb⟩ := h
      have hk2 := (List.getElem?_eq_some_iff.1 h2).1
      obtain ⟨ds, h3, h4, h5, _, h6, h7⟩ := digitsFrom_facts (t := t) (k := k + 2) (by omega)
      refine ⟨c!"." :: b :: ds, by omega, h4, ?_, Or.inr ⟨b :: ds, rfl, by simp, ?_⟩, by omega, h7⟩
      · rw [h5, take_succ_of h2, take_succ_of h1]; simp
      · intro c hc
        rcases List.mem_cons.1 hc with rfl | hc
        · exact hb
        · exact h6 c hc
    · rename_i h
      simp only [Bool.and_eq_true, decide_eq_true_eq, isDigit_iff] at h
      refine ⟨[], Nat.le_refl _, hk, by simp, Or.inl rfl, ?_, hd⟩
      intro _ b' hb1 hb2
      rw [h1] at hb1; rw [h2] at hb2
      cases hb1; cases hb2
      exact fun hd => h ⟨rfl, hd⟩
  · rename_i h
    refine ⟨[], Nat.le_refl _, hk, by simp, Or.inl rfl, ?_, hd⟩
    intro _ b hb1 hb2
    exact absurd hb2 (h _ _ hb1)

theorem exponent_facts {t : Bytes} {k : Nat} (hk : k ≤ t.length)
    (hd : ∀ c, t[k]? = some c → ¬ DecDigit c) :
    ∃ exp, k ≤ numberExponent t k ∧ numberExponent t k ≤ t.length ∧
      t.take (numberExponent t k) = t.take k ++ exp ∧ 
      (exp = [] ∨ ∃ e sgn ds, exp = e :: (sgn ++ ds) ∧ (e = c!"e" ∨ e = c!"E") ∧
      (sgn = [] ∨ sgn = b!"+" ∨ sgn = b!"-") ∧ ds ≠ [] ∧ ∀ c ∈ ds, DecDigit c) ∧
      ∀ c, t[numberExponent t k]? = some c → ¬ DecDigit c := by
  unfold numberExponent
  split
  · rename_i a b h1 h2
    split
    · rename_i he
      simp only [Bool.or_eq_true, decide_eq_true_eq] at he
      split
      · rename_i h
        simp only [Bool.and_eq_true, Bool.or_eq_true, decide_eq_true_eq] at h
        obtain ⟨hs, h⟩ := h
        obtain ⟨c, h3, h⟩ := (Option.any_eq_true _ _).1 h
        rw [isDigit_iff] at h
        have hk2 := (List.getElem?_eq_some_iff.1 h3).1
        obtain ⟨ds, h4, h5, h6, _, h7, h8⟩ := digitsFrom_facts (t := t) (k := k + 3) (by omega)
        refine ⟨a :: ([b] ++ (c :: ds)), by omega, h5, ?_, Or.inr ⟨a, [b], c :: ds, rfl, he, ?_, by simp, ?_⟩, h8⟩
        · rw [h6, take_succ_of h3, take_succ_of h2, take_succ_of h1]; simp
        · right; simpa using hs
        · intro x hx
          rcases List.mem_cons.1 hx with rfl | hx
          · exact h
          · exact h7 x hx
      · split
        · rename_i h
          rw [isDigit_iff] at h
          have hk2 := (List.getElem?_eq_some_iff.1 h2).1
          obtain ⟨ds, h4, h5, h6, _, h7, h8⟩ := digitsFrom_facts (t := t) (k := k + 2) (by omega)
          refine ⟨a :: ([] ++ (b :: ds)), by omega, h5, ?_, Or.inr ⟨a, [], b :: ds, rfl, he, Or.inl rfl, by simp, ?_⟩, h8⟩
          · rw [h6, take_succ_of h2, take_succ_of h1]; simp
          · intro x hx
            rcases List.mem_cons.1 hx with rfl | hx
            · exact h
            · exact h7 x hx
        · exact ⟨[], Nat.le_refl _, hk, by simp, Or.inl rfl, hd⟩
    · exact ⟨[], Nat.le_refl _, hk, by simp, Or.inl rfl, hd⟩
  · exact ⟨[], Nat.le_refl _, hk, by simp, Or.inl rfl, hd⟩

theorem number_facts {t : Bytes} (h : startsWithNumber t = true) :
    0 < matchNumber t ∧ matchNumber t ≤ t.length ∧ Number (t.take (matchNumber t)) ∧
      ∀ c, t[matchNumber t]? = some c → ¬ DecDigit c := by
  obtain ⟨k, sign, hk, hks, hsg, hu, hm⟩ : ∃ k sign, k ≤ t.length ∧ t.take k = sign ∧
      (sign = [] ∨ sign = b!"+" ∨ sign = b!"-") ∧ startsWithUnsigned (t.drop k) = true ∧
      matchNumber t = numberExponent t (numberFraction t (digitsFrom t k)) := by
    unfold startsWithNumber at h
    unfold matchNumber
    split at h
    · rename_i hs
      simp only [hs, if_true]
      simp only [Bool.or_eq_true] at hs
      rcases hs with hs | hs
      · have := startsWith_facts hs 1 rfl
        exact ⟨1, _, this.1, this.2, by simp, h, rfl⟩
      · have := startsWith_facts hs 1 rfl
        exact ⟨1, _, this.1, this.2, by simp, h, rfl⟩
    · rename_i hs
      simp only [hs]
      exact ⟨0, [], by omega, rfl, Or.inl rfl, by simpa using h, rfl⟩
  rw [hm]
  obtain ⟨int, i1, i2, i3, i4, i5, i6⟩ := digitsFrom_facts hk
  obtain ⟨frac, f1, f2, f3, f4, f5, f6⟩ := fraction_facts i2 i6
  obtain ⟨exp, e1, e2, e3, e4, e5⟩ := exponent_facts f2 f6
  have ne : int ++ frac ≠ [] := by
    intro e
    simp at e
    obtain ⟨rfl, rfl⟩ := e
    simp at i4
    have hk' : digitsFrom t k = k := by omega
    rw [hk'] at f5 f3 i6
    have hfl := congrArg List.length f3
    simp at hfl
    have f5 := f5 (by rw [hk'] at f1 f2; omega)
    unfold startsWithUnsigned at hu
    split at hu
    · simp at hu
    · rename_i a u hd
      have h0 : t[k]? = some a := by rw [← List.head?_drop, hd]; rfl
      simp only [Bool.or_eq_true, Bool.and_eq_true, decide_eq_true_eq, isDigit_iff] at hu
      rcases hu with hu | ⟨rfl, hu⟩
      · exact i6 a h0 hu
      · split at hu
        · simp at hu
        · rename_i b v
          have h1 : t[k + 1]? = some b := by
            have : (t.drop k)[1]? = some b := by rw [hd]; rfl
            rwa [List.getElem?_drop] at this
          rw [isDigit_iff] at hu
          exact f5 b h0 h1 hu
  have hw : t.take (numberExponent t (numberFraction t (digitsFrom t k))) = sign ++ int ++ frac ++ exp := by
    rw [e3, f3, i3, hks]
  refine ⟨?_, e2, ⟨sign, int, frac, exp, hw, hsg, i5, f4, e4, ne⟩, e5⟩
  have := congrArg List.length hw
  have := List.length_pos_iff.2 ne
  simp at *
  omega

/-! ## The highlighter -/

theorem commentStep_spec (g : Good rules env s) : wp (commentStep ()) (fun r s' => match r with
    | .inl _ => Good rules env s' ∧ s.idx < s'.idx ∧ True
    | .inr _ => Moved rules env s s' ∧ startsWith s'.rem b!"/*" = false) env s := by
  unfold commentStep
  hm
  · refine wp_blockComment (R := rules) (fun t => Tok.symbol (by simp [symbols]))
      (fun t => Tok.symbol (by simp [symbols])) (fun _ _ => Tok.comment) (by assumption) (by assumption) ?_
    intros
    hm
  · have := blockComment_facts s.rem
    cases h : startsWith s.rem b!"/*" with
    | false => rfl
    | true => have := this.2 h; omega

theorem consumeComments_spec (g : Good rules env s) : wp consumeComments
    (fun _ s' => Moved rules env s s' ∧ startsWith s'.rem b!"/*" = false) env s := by
  unfold consumeComments
  hm
  refine wp_loop_moved (R := rules) (fun _ _ => True) ?_ g trivial (by omega)
  intro _ s1 g1 l1 le1 _
  refine wp_mono (commentStep_spec g1) ?_
  intro r s' h
  match r with
  | .inl _ => exact h
  | .inr _ => exact ⟨⟨h.1.good, by have := h.1.le; omega⟩, h.2⟩

/-- The type is right for the identifier that begins here. -/
def FitsIdent (ty : HT) (t : Bytes) : Prop :=
  ty ∈ identTypes ∨ ty = .name_function ∧ t[matchIdentSequence t]? = some c!"("

theorem fits_ne {ty : HT} {t : Bytes} (h : FitsIdent ty t) : ty ≠ .none := by
  rcases h with h | h
  · rintro rfl; simp [identTypes] at h
  · rintro rfl; simp at h

theorem fits_drop {ty : HT} {t : Bytes} {k : Nat} (h : FitsIdent ty t)
    (hk : matchIdentSequence t = k + matchIdentSequence (t.drop k)) : FitsIdent ty (t.drop k) := by
  rcases h with h | ⟨h, h'⟩
  · exact Or.inl h
  · refine Or.inr ⟨h, ?_⟩
    rw [List.getElem?_drop, ← hk, h']

theorem fits_tok {ty : HT} {t : Bytes} {n : Nat} (hu : IsUtf8 t) (h : FitsIdent ty t) (hn : n ≤ t.length)
    (hc : ∀ c ∈ t.take n, IdChar c) (ne : ∀ c, t[n]? = some c → ¬ IdChar c) : Tok t n ty := by
  rcases h with h | ⟨rfl, h'⟩
  · exact .ident hc ne h
  · exact .function hc ne (by rw [ident_chars hn hc]; omega) (ident_facts hu).2 h'

theorem not_idChar_backslash : ¬ IdChar c!"\\" := by
  rw [← isId_iff]; decide

theorem ident_end {t : Bytes} {n : Nat} (hn : n ≤ t.length) (hc : ∀ c ∈ t.take n, IdChar c)
    (ne : ∀ c, t[n]? = some c → ¬ IdChar c) (hv : startsWithValidEscape (t.drop n) = false) :
    matchIdentSequence t = n := by
  rw [ident_chars hn hc]
  cases hd : t.drop n with
  | nil => rfl
  | cons a u =>
    rw [hd] at hv
    rw [ident_stop _ hv]
    · rfl
    · rw [Bool.eq_false_iff, ne_eq, isId_iff]
      exact ne a (by rw [← List.head?_drop, hd]; rfl)

theorem validEscape_head {t : Bytes} {n : Nat} (h : startsWithValidEscape (t.drop n) = true) :
    t[n]? = some c!"\\" := by
  obtain ⟨b, u, h, _⟩ := validEscape_facts h
  rw [← List.head?_drop, h]; rfl

theorem head_of_drop {t u : Bytes} {n : Nat} {c : UInt8} (h : u = t.drop n) (hc : t[n]? = some c) :
    u[0]? = some c := by
  rw [h, List.getElem?_drop]; exact hc

theorem identStep_spec {ty : HT} {n : Nat} (hu : IsUtf8 env.src) (g : Good rules env s)
    (hn : n ≤ s.rem.length) (hc : ∀ c ∈ s.rem.take n, IdChar c) (hf : FitsIdent ty s.rem) :
    wp (identStep ty n) (fun r s' => match r with
      | .inl n' => Good rules env s' ∧ s.idx ≤ s'.idx ∧ n' ≤ s'.rem.length ∧ s.idx + n < s'.idx + n' ∧
        ((∀ c ∈ s'.rem.take n', IdChar c) ∧ FitsIdent ty s'.rem ∧
          s'.idx + matchIdentSequence s'.rem = s.idx + matchIdentSequence s.rem)
      | .inr _ => Good rules env s' ∧ s'.idx = s.idx + matchIdentSequence s.rem) env s := by
  have hu' := g.utf8 rules_whole hu
  have hty := fits_ne hf
  unfold identStep
  refine wp_bind_intro (wp_rem.2 ?_)
  cases hcn : s.rem[n]? with
  | none =>
    have ne : ∀ c, s.rem[n]? = some c → ¬ IdChar c := by simp [hcn]
    have tok : 0 < n → rules.tok s.rem n ty := fun _ => fits_tok hu' hf hn hc ne
    have e := ident_end hn hc ne (by rw [List.drop_eq_nil_of_le (by simpa using hcn)]; rfl)
    hm
  | some c =>
    by_cases hv : startsWithValidEscape (s.rem.drop n) = true
    · have hb := validEscape_head hv
      have ne : ∀ c, s.rem[n]? = some c → ¬ IdChar c := by
        rw [hb]; intro c hc; cases hc; exact not_idChar_backslash
      have tok : 0 < n → rules.tok s.rem n ty := fun _ => fits_tok hu' hf hn hc ne
      have hd : IsUtf8 (s.rem.drop n) := (Whole.at hb (by decide) hu').2
      have esc := escaped_facts (t := s.rem.drop n) (by rw [List.getElem?_drop]; exact hb) hd
      have e1 := ident_chars hn hc
      have e2 := ident_escape hv
      simp only [hv, if_true]
      refine wp_bind_intro (wp_step_emitAdvIf g hn hty tok ?_)
      intro s1 g1 l1 r1 i1 x1
      refine wp_bind_intro (wp_rem.2 ?_)
      rw [r1]
      refine wp_bind_intro (wp_step_emitAdv g1 (by omega) (by rw [r1]; exact esc.1) (by decide)
        (by rw [r1]; exact Tok.escape esc.2) ?_)
      intro s2 g2 l2 r2 i2 x2
      rw [wp_pure]
      refine ⟨g2, by omega, by omega, by omega, by simp, ?_, ?_⟩
      · rw [r2, r1]
        exact fits_drop (fits_drop hf e1) e2
      · rw [r2, r1]; omega
    · simp only [hv, if_false, Bool.false_eq_true]
      by_cases hi : isId c = true
      · rw [if_pos hi, wp_pure]
        have := (List.getElem?_eq_some_iff.1 hcn).1
        exact ⟨g, Nat.le_refl _, this, by omega, take_all_succ hc hcn ((isId_iff c).1 hi), hf, rfl⟩
      · rw [if_neg hi]
        have ne : ∀ c, s.rem[n]? = some c → ¬ IdChar c := by
          rw [hcn]; intro c hc; cases hc; rwa [← isId_iff]
        have tok : 0 < n → rules.tok s.rem n ty := fun _ => fits_tok hu' hf hn hc ne
        have e := ident_end hn hc ne (by simpa using hv)
        hm

theorem consumeIdentLike_spec {ty : HT} (hu : IsUtf8 env.src) (g : Good rules env s)
    (h0 : matchIdentSequence s.rem ≠ 0) (hty : ty ∈ identTypes) :
    wp (consumeIdentLike ty) (fun _ s' => Moved rules env s s' ∧ s.idx < s'.idx) env s := by
  unfold consumeIdentLike
  obtain ⟨r, h1, h2, h3⟩ := identLike_facts (g.utf8 rules_whole hu)
  refine wp_bind_intro (wp_rem.2 (wp_bind_intro (wp_lift.2 ⟨r, h1, ?_⟩)))
  refine wp_bind_intro (wp_hassert_intro (by simpa [h2] using h0) ?_)
  have hf : FitsIdent (actualType ty r.2) s.rem := by
    unfold actualType
    rcases h3 with h3 | ⟨h3, h4⟩
    · rw [h3]
      split
      · exact Or.inl hty
      · exact Or.inl (by decide)
    · rw [h3]
      split
      · exact Or.inl hty
      · exact Or.inr ⟨rfl, h4⟩
  refine wp_scan (R := rules) (fun n s1 => (∀ c ∈ s1.rem.take n, IdChar c) ∧
    FitsIdent (actualType ty r.2) s1.rem ∧
    s1.idx + matchIdentSequence s1.rem = s.idx + matchIdentSequence s.rem) ?_ g (by omega)
    ⟨by simp, hf, rfl⟩ (by omega)
  rintro n s1 g1 l1 i1 n1 ⟨c1, f1, e1⟩
  refine wp_mono (identStep_spec hu g1 n1 c1 f1) ?_
  intro x s' h
  match x with
  | .inl n' => exact ⟨h.1, h.2.1, h.2.2.1, h.2.2.2.1, h.2.2.2.2.1, h.2.2.2.2.2.1, by rw [h.2.2.2.2.2.2, e1]⟩
  | .inr _ => exact ⟨⟨h.1, by omega⟩, by omega⟩

theorem consumeNumber_spec (g : Good rules env s) (h : startsWithNumber s.rem = true) :
    wp consumeNumber (fun _ s' => Good rules env s' ∧ s.idx < s'.idx) env s := by
  unfold consumeNumber
  obtain ⟨h1, h2, h3, h4⟩ := number_facts h
  have := Tok.number h3 h4
  hm

theorem consumeNumeric_spec (hu : IsUtf8 env.src) (g : Good rules env s)
    (h : startsWithNumber s.rem = true) :
    wp consumeNumeric (fun _ s' => Moved rules env s s' ∧ s.idx < s'.idx) env s := by
  unfold consumeNumeric
  hm
  exact startsWithIdent_ne (by assumption)

theorem stringStep_spec {q : UInt8} {n b : Nat} (hu : IsUtf8 env.src) (g : Good rules env s)
    (hq : q ∈ b!"'\"") (hb : b = 0 ∨ b = 1 ∧ s.rem[0]? = some q) (hbn : b ≤ n)
    (hn : n ≤ s.rem.length)
    (hc : ∀ c ∈ (s.rem.drop b).take (n - b), c ≠ q ∧ ¬ Newline c ∧ c ≠ c!"\\") :
    wp (stringStep q n) (fun r s' => match r with
      | .inl n' => Good rules env s' ∧ s.idx ≤ s'.idx ∧ n' ≤ s'.rem.length ∧ s.idx + n < s'.idx + n' ∧
          ∃ b, (b = 0 ∨ b = 1 ∧ s'.rem[0]? = some q) ∧ b ≤ n' ∧
           ∀ c ∈ (s'.rem.drop b).take (n' - b), c ≠ q ∧ ¬ Newline c ∧ c ≠ c!"\\"
      | .inr _ => Good rules env s' ∧ s.idx + n ≤ s'.idx) env s := by
  have hu' := g.utf8 rules_whole hu
  have tok : ∀ n', Piece b q s.rem n' → rules.tok s.rem n' .string := by
    intro n' hp
    rcases hb with rfl | ⟨rfl, h⟩
    · exact Tok.more hq hp
    · exact Tok.string hq h hp
  have stop : (∀ c, s.rem[n]? = some c → c ≠ q ∧ (Newline c ∨ c = c!"\\")) → 0 < n → rules.tok s.rem n .string := by
    intro h _
    refine tok n ⟨n - b, ⟨hc, ?_⟩, Or.inr ⟨?_, by omega⟩⟩
    · intro c hc'
      rw [List.getElem?_drop, show b + (n - b) = n by omega] at hc'
      have := h c hc'
      grind
    · rw [show b + (n - b) = n by omega]
      intro hc'
      exact (h q hc').1 rfl
  unfold stringStep
  refine wp_bind_intro (wp_rem.2 ?_)
  cases hcn : s.rem[n]? with
  | none =>
    have tok := stop (by simp [hcn])
    hm
  | some c =>
    have hlt := (List.getElem?_eq_some_iff.1 hcn).1
    by_cases h1 : c = q
    · subst h1
      have tok : 0 < n + 1 → rules.tok s.rem (n + 1) .string := by
        intro _
        refine tok _ ⟨n - b, ⟨hc, ?_⟩, Or.inl ⟨?_, by omega⟩⟩
        · intro c hc'
          rw [List.getElem?_drop, show b + (n - b) = n by omega, hcn] at hc'
          cases hc'
          simp
        · rw [show b + (n - b) = n by omega]; exact hcn
      simp only [if_true]
      hm
    · dsimp only
      rw [if_neg h1]
      by_cases h2 : isNewline c = true
      · have tok := stop (by rw [hcn]; intro c hc; cases hc; exact ⟨h1, Or.inl ((newline_iff c).1 h2)⟩)
        rw [if_pos h2]
        hm
      · rw [if_neg h2]
        by_cases h3 : c = c!"\\"
        · subst h3
          have tok := stop (by rw [hcn]; intro c hc; cases hc; exact ⟨h1, Or.inr rfl⟩)
          have hd : IsUtf8 (s.rem.drop n) := (Whole.at hcn (by decide) hu').2
          have esc := escaped_facts (t := s.rem.drop n) (by rw [List.getElem?_drop]; exact hcn) hd
          simp only [if_true]
          refine wp_bind_intro (wp_step_emitAdvIf g hn (by decide) tok ?_)
          intro s1 g1 l1 r1 i1 x1
          refine wp_bind_intro (wp_rem.2 ?_)
          rw [r1]
          refine wp_bind_intro (wp_step_emitAdv g1 (by omega) (by rw [r1]; exact esc.1) (by decide)
            (by rw [r1]; exact Tok.escape esc.2) ?_)
          intro s2 g2 l2 r2 i2 x2
          rw [wp_pure]
          exact ⟨g2, by omega, by omega, by omega, 0, Or.inl rfl, by omega, by simp⟩
        · rw [if_neg h3, wp_pure]
          refine ⟨g, Nat.le_refl _, hlt, by omega, b, hb, by omega, ?_⟩
          rw [show n + 1 - b = n - b + 1 by omega]
          refine take_all_succ (P := fun c => c ≠ q ∧ ¬ Newline c ∧ c ≠ c!"\\") hc (c := c) ?_ ?_
          · rw [List.getElem?_drop, show b + (n - b) = n by omega]; exact hcn
          · exact ⟨h1, by rwa [← newline_iff], h3⟩

theorem consumeString_spec {q : UInt8} (hu : IsUtf8 env.src) (g : Good rules env s)
    (hq : q ∈ b!"'\"") (h0 : s.rem[0]? = some q) :
    wp (consumeString q) (fun _ s' => Moved rules env s s' ∧ s.idx < s'.idx) env s := by
  unfold consumeString
  refine wp_bind_intro (wp_rem.2 ?_)
  have hlt := (List.getElem?_eq_some_iff.1 h0).1
  refine wp_scan (R := rules) (fun n s1 => s.idx < s1.idx + n ∧ ∃ b, (b = 0 ∨ b = 1 ∧ s1.rem[0]? = some q) ∧ b ≤ n ∧
     ∀ c ∈ (s1.rem.drop b).take (n - b), c ≠ q ∧ ¬ Newline c ∧ c ≠ c!"\\") ?_ g (by omega)
    ⟨by omega, 1, Or.inr ⟨rfl, h0⟩, by omega, by simp⟩ (by omega)
  rintro n s1 g1 l1 i1 n1 ⟨p1, b, c1, f1, e1⟩
  refine wp_mono (stringStep_spec hu g1 hq c1 f1 n1 e1) ?_
  intro x s' h
  match x with
  | .inl n' => exact ⟨h.1, h.2.1, h.2.2.1, h.2.2.2.1, by have := h.2.2.2.1; omega, h.2.2.2.2⟩
  | .inr _ => exact ⟨⟨h.1, by omega⟩, by omega⟩

theorem type_mem (c : Context) : c.type ∈ identTypes := by cases c <;> decide

theorem ident_ne_of_id {c : UInt8} {t u : Bytes} (h : u = c :: t) (hc : isId c = true) :
    matchIdentSequence u ≠ 0 := by
  rw [h, ident_char hc]; omega

theorem ident_ne_of_escape {t : Bytes} (h : startsWithValidEscape t = true) : matchIdentSequence t ≠ 0 := by
  rw [ident_escape h]; omega

theorem caseHash_spec {t : Bytes} (hu : IsUtf8 env.src) (g : Good rules env s) (h : s.rem = c!"#" :: t) :
    wp caseHash (fun _ s' => Moved rules env s s' ∧ s.idx < s'.idx) env s := by
  unfold caseHash
  hm_hyp h
  have hty : ∀ c : Context, (if c = .value then HT.value else c.type) ∈ identTypes := by
    intro c; cases c <;> decide
  hm
  · rename_i h1 s1 _ _ r1 _ _
    rcases h1 with h1 | h1
    · split at h1
      · simp at h1
      · rename_i c u hd
        exact ident_ne_of_id (r1.trans hd) h1
    · exact ident_ne_of_escape (by rwa [r1])
  · cases s.ext.ctx <;> decide
  · rw [h]
    cases s.ext.ctx <;> exact Tok.symbol (by simp [symbols, Context.type])
  · exact Gap.ascii c!"#" (by rw [h]; rfl) (by decide) (by simp [Letter, DecDigit])

theorem caseDot_spec {t : Bytes} (hu : IsUtf8 env.src) (g : Good rules env s) (h : s.rem = c!"." :: t) :
    wp caseDot (fun _ s' => Moved rules env s s' ∧ s.idx < s'.idx) env s := by
  unfold caseDot
  hm_hyp h
  hm
  exact Gap.ascii c!"." (by rw [h]; rfl) (by decide) (by simp [Letter, DecDigit])

theorem sign_tok {c : UInt8} {t : Bytes} (x : Bool) (hc : c = c!"+" ∨ c = c!"-") :
    Tok (c :: t) 1 (if x then HT.symbol_op else HT.error) := by
  split
  · rcases hc with rfl | rfl <;> exact Tok.symbol (by simp [symbols])
  · exact Tok.sign (by simpa using hc)

theorem caseSign_spec {c : UInt8} {t : Bytes} (hu : IsUtf8 env.src) (g : Good rules env s) (h : s.rem = c :: t)
    (hc : c ∈ b!"+-") :
    wp (caseSign c) (fun _ s' => Moved rules env s s' ∧ s.idx < s'.idx) env s := by
  unfold caseSign
  hm_hyp h
  simp at hc
  have := sign_tok (t := t) (decide (s.ext.ctx = Context.value) || decide (s.ext.ctx = Context.atPrelude)) hc
  rw [← h] at this
  rcases hc with rfl | rfl
  · hm
  · hm
    · refine Tok.symbol ?_
      rename_i h3
      rw [h3]; decide
    · exact ident_ne_of_id h (by decide)

theorem caseColon_spec {t : Bytes} (g : Good rules env s) (h : s.rem = c!":" :: t) :
    wp caseColon (fun _ s' => Moved rules env s s' ∧ s.idx < s'.idx) env s := by
  unfold caseColon
  hm_hyp h
  hm

theorem caseSemicolon_spec {t : Bytes} (g : Good rules env s) (h : s.rem = c!";" :: t) :
    wp caseSemicolon (fun _ s' => Moved rules env s s' ∧ s.idx < s'.idx) env s := by
  unfold caseSemicolon
  hm_hyp h
  hm

theorem caseLess_spec {t : Bytes} (g : Good rules env s) (h : s.rem = c!"<" :: t) :
    wp caseLess (fun _ s' => Moved rules env s s' ∧ s.idx < s'.idx) env s := by
  unfold caseLess
  hm_hyp h
  hm
  rename_i h3
  exact Tok.symbol (by rw [h3]; decide)

theorem caseCombinator_spec {c : UInt8} {t : Bytes} (g : Good rules env s) (h : s.rem = c :: t)
    (hc : c ∈ b!">~*") :
    wp caseCombinator (fun _ s' => Moved rules env s s' ∧ s.idx < s'.idx) env s := by
  unfold caseCombinator
  hm_hyp h
  simp at hc
  rcases hc with rfl | rfl | rfl
  all_goals hm

theorem caseAt_spec {t : Bytes} (hu : IsUtf8 env.src) (g : Good rules env s) (h : s.rem = c!"@" :: t) :
    wp caseAt (fun _ s' => Moved rules env s s' ∧ s.idx < s'.idx) env s := by
  unfold caseAt
  hm_hyp h
  hm
  rename_i h1 _ _ _ r1 _ _
  exact startsWithIdent_ne (by rwa [r1])

theorem lower_toUpper (c : UInt8) : toLower (toUpper c) = lower c := by
  revert c; apply forall_byte; unfold lower; decide +kernel

theorem toLower_toUpper (c : UInt8) (h : isLower c = true) : toLower (toUpper c) = c := by
  revert c; apply forall_byte; decide +kernel

theorem lower_eq (c : UInt8) (d : UInt8) (hd : isLower d = true) (h : toUpper d = toUpper c) : lower c = d := by
  rw [← lower_toUpper, ← h, toLower_toUpper d hd]

theorem important_facts {t w : Bytes} (hw : ∀ c ∈ w, isLower c = true)
    (h : Ascii.startsWithIgnoreCase t w = true) : w.length ≤ t.length ∧ (t.take w.length).map lower = w := by
  unfold Ascii.startsWithIgnoreCase at h
  split at h
  · simp at h
  · rename_i hl
    refine ⟨by omega, ?_⟩
    have hl : w.length ≤ t.length := by omega
    rename_i h1
    clear h1
    induction w generalizing t with
    | nil => simp
    | cons a w ih =>
      match t, hl with
      | b :: t, hl =>
        simp [Ascii.sameIgnoringCase] at h
        simp at hl
        simp only [List.length_cons, List.take_succ_cons, List.map_cons]
        rw [ih (fun c hc => hw c (by simp [hc])) h.2 hl, lower_eq b a (hw a (by simp)) h.1]

theorem caseBang_spec {t : Bytes} (g : Good rules env s) (h : s.rem = c!"!" :: t) :
    wp caseBang (fun _ s' => Moved rules env s s' ∧ s.idx < s'.idx) env s := by
  unfold caseBang
  hm_hyp h
  have hl := length_if_zero_longest (s.rem.drop 1) isHtmlWhitespace Space space_iff
  have hle := (length_if_le (s.rem.drop 1) isHtmlWhitespace 0 (by omega)).2
  rw [List.length_drop] at hle
  have key : ∀ m, Ascii.startsWithIgnoreCase
      ((s.rem.drop (1 + Ascii.length_if (s.rem.drop 1) isHtmlWhitespace)).take m) b!"important" = true →
      1 + Ascii.length_if (s.rem.drop 1) isHtmlWhitespace + 9 ≤ s.rem.length ∧
        Tok s.rem (1 + Ascii.length_if (s.rem.drop 1) isHtmlWhitespace + 9) .keyword := by
    intro m hi
    generalize Ascii.length_if (s.rem.drop 1) isHtmlWhitespace = k at *
    have hi' := important_facts (by decide) hi
    rw [List.length_take, List.length_drop, List.take_take] at hi'
    obtain ⟨h1, h2⟩ := hi'
    have h9 : b!"important".length = 9 := rfl
    rw [h9] at h1 h2
    refine ⟨by omega, Tok.important (ws := (s.rem.drop 1).take k) (w := (s.rem.drop (1 + k)).take 9) ?_ hl.1 ?_⟩
    · rw [List.take_add, List.take_add]
      congr 2
    · rw [Nat.min_eq_left (by omega)] at h2
      exact h2
  hm
  · exact (key _ (by assumption)).2
  · exact Gap.ascii c!"!" (by rw [h]; rfl) (by decide) (by simp [Letter, DecDigit])

theorem caseBackslash_spec {t : Bytes} (hu : IsUtf8 env.src) (g : Good rules env s) (h : s.rem = c!"\\" :: t) :
    wp caseBackslash (fun _ s' => Moved rules env s s' ∧ s.idx < s'.idx) env s := by
  unfold caseBackslash
  hm_hyp h
  hm
  · exact ident_ne_of_escape (by assumption)
  · exact type_mem _
  · rename_i hv
    refine Tok.backslash (by assumption) ?_
    intro c hc
    rw [h] at hc hv
    match t with
    | [] => simp at hc
    | b :: u =>
      simp at hc
      subst hc
      rw [← newline_iff]
      simpa [startsWithValidEscape] using hv

theorem caseOpen_spec {t : Bytes} (g : Good rules env s) (h : s.rem = c!"{" :: t) :
    wp caseOpen (fun _ s' => Moved rules env s s' ∧ s.idx < s'.idx) env s := by
  unfold caseOpen
  hm_hyp h
  hm

theorem caseClose_spec {t : Bytes} (g : Good rules env s) (h : s.rem = c!"}" :: t) :
    wp caseClose (fun _ s' => Moved rules env s s' ∧ s.idx < s'.idx) env s := by
  unfold caseClose
  hm_hyp h
  hm

theorem sequenceLength_ascii {c : UInt8} (h : c.toNat < 0x80) : sequenceLength c = 1 := by
  revert c; apply forall_byte; decide +kernel

theorem caseDefault_spec {c : UInt8} {t : Bytes} (hu : IsUtf8 env.src) (g : Good rules env s) (h : s.rem = c :: t)
    (hn : c ∉ b!"\"'()+-,:;<>~*@[]\\{}") (hd : ¬ DecDigit c) :
    wp (caseDefault c) (fun _ s' => Moved rules env s s' ∧ s.idx < s'.idx) env s := by
  unfold caseDefault
  have hu' := g.utf8 rules_whole hu
  rw [h] at hu'
  obtain ⟨d, p, rest, h1, h2, h3, h4, h5⟩ := isUtf8_sequence hu'
  rw [← h] at h1 h5
  by_cases hi : isIdStart c = true
  · have := ident_ne_of_id h (by simp [isId, hi])
    have := type_mem s.ext.ctx
    simp only [hi, if_true]
    hm
  · simp only [hi, if_false, Bool.false_eq_true]
    have : rules.gap s.rem (sequenceLength c) := by
      rw [h3]
      rcases isUtf8_head hu' with hlt | hge
      · have : p.length = 1 := by
          rw [← h3]; exact sequenceLength_ascii hlt
        rw [this]
        refine Gap.ascii c (by rw [h]; rfl) hlt ⟨?_, hd, ?_⟩
        · intro hl
          rw [← isAlpha_iff] at hl
          simp [isIdStart, hl] at hi
        · simp [isIdStart] at hi
          simp at hn ⊢
          simp [hi, hn]
      · rw [h1]
        refine Gap.other h2 ?_
        have h0 : p[0]? = some c := by
          have := congrArg (·[0]?) h1
          simp only [h] at this
          rw [List.getElem?_append_left h4] at this
          simpa using this.symm
        rcases h2 with ⟨h2, rfl⟩ | ⟨rfl, _⟩
        · by_cases hd : d < 0x80
          · simp [utf8, hd] at h0
            rw [← h0] at hge
            simp at hge
            omega
          · omega
        · omega
    hm

theorem caseChar_spec {c : UInt8} {t : Bytes} (hu : IsUtf8 env.src) (g : Good rules env s) (h : s.rem = c :: t) :
    wp (caseChar c) (fun _ s' => Moved rules env s s' ∧ s.idx < s'.idx) env s := by
  unfold caseChar
  hm_hyp h
  have sp : c ∈ b!" \t\r\n" ∨ c = 0x0C → 0 < Ascii.length_if s.rem isHtmlWhitespace := by
    intro hc
    rw [Ascii.length_if_eq, h, List.takeWhile_cons, if_pos]
    · simp
    · rw [space_iff]; simp [Space] at hc ⊢; grind
  have gap := Gap.space (length_if_zero_longest s.rem isHtmlWhitespace Space space_iff).1
  hm
  · rename_i hc
    simp at hc
    rcases hc with rfl | rfl
    · exact Tok.symbol (by simp [h, symbols])
    · exact Tok.symbol (by simp [h, symbols])
  · rename_i hc
    simp at hc
    rcases hc with rfl | rfl
    · exact Tok.symbol (by simp [h, symbols])
    · exact Tok.symbol (by simp [h, symbols])
  · have : c ≠ c!"+" ∧ c ≠ c!"-" := by constructor <;> grind
    unfold startsWithNumber
    rw [h, startsWith_cons_one, startsWith_cons_one]
    simp [this, startsWithUnsigned]
    left; assumption
  · simp at *
    simp [*]
  · rw [← isDigit_iff]
    simp [*]

theorem step_spec (hu : IsUtf8 env.src) (g : Good rules env s) (h : s.rem ≠ []) :
    wp step (fun _ s' => Moved rules env s s' ∧ s.idx < s'.idx) env s := by
  unfold step
  hm_hyp h
  hm
  have := List.length_pos_iff.2 h
  have := g.len
  simp_all
  omega

theorem highlight_tiles (debug : Bool) (opts : Opts) (src : Bytes) (hu : IsUtf8 src) :
    ∃ es, highlight debug opts src = .ok (true, es) ∧
      Tiles rules src src.length (es.map Emit.token) := by
  obtain ⟨good, es, h1, rfl, h2⟩ := run_of_wp (m := run) (ext := {}) (R := rules) (debug := debug)
    (opts := opts) (src := src) (P := fun b => b = true) (by
      intro s g hr hi _
      unfold run
      hm
      refine wp_while_moved (R := rules) (fun _ => True) ?_ g trivial (by omega) ?_
      · intro s1 g1 _ _ _ _
        have hu : IsUtf8 (⟨debug, opts.seen, src⟩ : HEnv).src := hu
        hm
      · intros
        hm
        )
  exact ⟨es, h1, h2⟩

/-- For well-formed text, highlighting CSS succeeds, and every token is what its type says. -/
theorem C42_css_tokens (debug : Bool) (opts : Opts) (src : Bytes) (hu : IsUtf8 src) :
    ∃ es, highlight debug opts src = .ok (true, es) ∧
      Tiles rules src src.length (es.map Emit.token) :=
  highlight_tiles debug opts src hu

/-- What is highlighted. -/
def tokensOf (src : Bytes) : Option (List Token) :=
  (highlight true {} src).toOption.map (fun r => r.2.map Emit.token)

example : IsUtf8 b!"a.b { c: f(1.5em, -2%) !important; /* x */ }" := isUtf8_ascii (by decide)

example : tokensOf b!"a.b { c: f(1.5em, -2%) !important; /* x */ }" =
    some [⟨0, 1, .markup_tag⟩, ⟨1, 1, .markup_tag⟩, ⟨2, 1, .markup_tag⟩, ⟨4, 1, .symbol_brace⟩,
      ⟨6, 1, .markup_attr⟩, ⟨7, 1, .symbol_punc⟩, ⟨9, 1, .name_function⟩, ⟨10, 1, .symbol_parens⟩,
      ⟨11, 3, .number⟩, ⟨14, 2, .number_decor⟩, ⟨16, 1, .symbol_punc⟩, ⟨18, 2, .number⟩,
      ⟨20, 1, .number_decor⟩, ⟨21, 1, .symbol_parens⟩, ⟨23, 10, .keyword⟩, ⟨33, 1, .symbol_punc⟩,
      ⟨35, 2, .comment_delim⟩, ⟨37, 3, .comment⟩, ⟨40, 2, .comment_delim⟩, ⟨43, 1, .symbol_brace⟩] := by
  decide +kernel

example : tokensOf b!"#f\\61 x" =
    some [⟨0, 1, .markup_tag⟩, ⟨1, 1, .markup_tag⟩, ⟨2, 4, .string_escape⟩, ⟨6, 1, .markup_tag⟩] := by
  decide +kernel

/-- `match_ident_like_token` never finds a URL token, although there is a case for it. -/
theorem C42_url_never (s : Bytes) (n : Nat) : matchIdentLike s ≠ .ok (n, .url) := by
  unfold matchIdentLike
  simp only
  split
  · simp
  · split
    · simp
    · rename_i c hc
      split
      · simp
      · rename_i hp
        simp at hp
        subst hp
        rw [if_neg]
        · simp
        · rw [List.drop_eq_getElem_cons (List.getElem?_eq_some_iff.1 hc).1, (List.getElem?_eq_some_iff.1 hc).2]
          intro h
          unfold Ascii.equalsIgnoreCase at h
          split at h
          · simp at h
          · simp [Ascii.sameIgnoringCase] at h
            exact absurd h.1 (by decide)

/-- Differences to CSS: `url` is highlighted as any other function, characters that are not ASCII are
not part of identifiers, and `!important` is a keyword although more of the word follows. -/
theorem C42_differences :
    tokensOf b!"a{b:url(x)}" = some [⟨0, 1, .markup_tag⟩, ⟨1, 1, .symbol_brace⟩, ⟨2, 1, .markup_attr⟩,
      ⟨3, 1, .symbol_punc⟩, ⟨4, 3, .name_function⟩, ⟨7, 1, .symbol_parens⟩, ⟨8, 1, .name⟩,
      ⟨9, 1, .symbol_parens⟩, ⟨10, 1, .symbol_brace⟩] ∧
    tokensOf (b!"a" ++ utf8 0xE9 ++ b!"b{}") =
      some [⟨0, 1, .markup_tag⟩, ⟨3, 1, .markup_tag⟩, ⟨4, 1, .symbol_brace⟩, ⟨5, 1, .symbol_brace⟩] ∧
    tokensOf b!"!importantfoo" = some [⟨0, 10, .keyword⟩, ⟨10, 3, .markup_tag⟩] := by
  decide +kernel

/-- Tokens of CSS do not split characters. -/
theorem C31_css (debug : Bool) (opts : Opts) (src : Bytes) (hu : IsUtf8 src) (good : Bool)
    (es : List Emit) (h : highlight debug opts src = .ok (good, es)) (t : Token)
    (ht : t ∈ es.map Emit.token) :
    IsUtf8 (src.take t.beg) ∧ IsUtf8 ((src.drop t.beg).take t.len) ∧
      IsUtf8 (src.drop (t.beg + t.len)) := by
  obtain ⟨es', h1, h2⟩ := highlight_tiles debug opts src hu
  rw [h] at h1
  cases h1
  exact (h2.utf8 rules_whole hu).2.2 t ht

example : IsUtf8 (b!"'" ++ utf8 0xE9 ++ b!"'") ∧
    tokensOf (b!"'" ++ utf8 0xE9 ++ b!"'") = some [⟨0, 4, .string⟩] :=
  ⟨⟨[0x27, 0xE9, 0x27], by simp [IsScalar], by decide⟩, by decide +kernel⟩

/-- The state of the highlighter for the text that consists of a stray continuation byte. -/
theorem step_stuck (debug : Bool) (opts : Opts) :
    step ⟨debug, opts, [0x80]⟩ ⟨[0x80], 0, [], {}⟩ = .ok ((), ⟨[0x80], 0, [], {}⟩) := by
  cases debug <;> rfl

/-- A stray continuation byte is never consumed: the loop goes on for any number of steps. -/
theorem C07_css_runs_forever (debug : Bool) (opts : Opts) (steps : Nat) :
    HM.whileNotEof steps step ⟨debug, opts, [0x80]⟩ ⟨[0x80], 0, [], {}⟩ = .error .outOfFuel := by
  unfold HM.whileNotEof
  induction steps with
  | zero => rfl
  | succ n ih =>
    refine Eq.trans ?_ ih
    show HM.loop _ _ _ _ _ = _
    rw [HM.loop]
    simp only [bind, pure]
    rfl

/-- Text that ends inside a character makes the highlighter read past the end. -/
theorem C07_css_reads_past_end (debug : Bool) : highlight debug {} [0xC3] = .error .outOfBounds ∧
    highlight debug {} [0x5C, 0xC3] = .error .outOfBounds ∧
    highlight false {} [0x22, 0x5C, 0xC3] = .error .outOfBounds := by
  cases debug <;> decide +kernel

end Ulight.Css
