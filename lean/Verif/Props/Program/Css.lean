import Verif.Hl.ProgramModes
import Verif.Props.Lang.Css
import Verif.Spec.Elements.Css

/-!
# C58 for CSS
-/

namespace Ulight.Css

open Spec Spec.Css Utf8

set_option maxRecDepth 2000

variable {opts : Opts} {x : Ext} {b : Bytes}

/-- The state of the program for a part of the style sheet. -/
def ctxOf : Part → Context
  | .selector => .topLevel
  | .prelude => .atPrelude
  | .property => .block
  | .value => .value

def extOf (x : Where) : Ext := ⟨x.level, ctxOf x.part⟩

@[simp] theorem ctxOf_type (p : Part) : (ctxOf p).type = p.type := by cases p <;> rfl

/-! ## Escapes -/

theorem hex_run {ds r : Bytes} (h : ∀ c ∈ ds, HexDigit c) (h6 : ds.length ≤ 6)
    (max : ds.length = 6 ∨ ∀ c, r.head? = some c → ¬ HexDigit c) :
    (((ds ++ r).take 6).takeWhile isHexDigit).length = ds.length := by
  have h1 : ∀ c ∈ ds, isHexDigit c = true := fun c hc => (hex_iff c).2 (h c hc)
  rw [List.take_append, List.take_of_length_le h6, List.takeWhile_append_of_pos h1]
  rcases max with max | max
  · simp [max]
  · rcases r with _ | ⟨c, r⟩
    · simp
    · have : isHexDigit c = false := by
        rw [← Bool.not_eq_true, hex_iff]
        exact max c rfl
      cases hk : 6 - ds.length <;> simp [this]

theorem space_not_hex {c : UInt8} (h : Space c) : ¬ HexDigit c := by
  rw [← hex_iff]
  unfold Space at h
  revert h
  revert c
  apply forall_byte
  decide +kernel

theorem escape_first {w r : Bytes} (h : IsEscape w r) : ∃ t, w = c!"\\" :: t := by
  cases h <;> exact ⟨_, rfl⟩

theorem escape_at {w r : Bytes} (h : IsEscape w r) : matchEscapedCodePoint ((w ++ r).drop 1) + 1 = w.length := by
  have key : ∀ {ds r : Bytes}, 1 ≤ ds.length → (∀ c ∈ ds, HexDigit c) → ds.length ≤ 6 →
      (ds.length = 6 ∨ ∀ c, r.head? = some c → ¬ HexDigit c) → matchEscapedCodePoint (ds ++ r) =
      match r.head? with
      | some c => if isWhitespace c then ds.length + 1 else ds.length
      | none => ds.length := by
    intro ds r h1 h h6 max
    obtain ⟨d, ds, rfl⟩ := List.exists_cons_of_ne_nil (List.length_pos_iff.1 h1)
    have e := hex_run h h6 max
    unfold matchEscapedCodePoint
    simp only [List.cons_append] at e ⊢
    rw [e, if_pos (by simp)]
    have : (d :: (ds ++ r))[(d :: ds).length]? = r.head? := by
      rw [← List.cons_append, List.getElem?_append_right (Nat.le_refl _), Nat.sub_self, List.head?_eq_getElem?]
    rw [this]
    rfl
  cases h with
  | @hex ds _ h1 h6 h max space =>
    show matchEscapedCodePoint (ds ++ r) + 1 = _
    rw [key h1 h h6 max]
    cases hr : r.head? with
    | none => rfl
    | some c =>
      have : isWhitespace c = false := by
        rw [← Bool.not_eq_true]
        exact fun hc => space c hr ((space_iff c).1 hc)
      simp [this]
  | @hexSpace ds c _ h1 h6 h hc =>
    show matchEscapedCodePoint (ds ++ [c] ++ r) + 1 = _
    rw [List.append_assoc, key (r := [c] ++ r) h1 h h6 (.inr (by rintro _ h; cases h; exact space_not_hex hc))]
    have : isWhitespace c = true := (space_iff c).2 hc
    simp [this]
  | @char c _ h h' =>
    show matchEscapedCodePoint (utf8 c ++ r) + 1 = _
    have he := enc_utf8 h
    obtain ⟨d, t, e⟩ := List.exists_cons_of_ne_nil (enc_ne_nil he)
    have hd : ¬ HexDigit d := h' d (by rw [e]; rfl)
    have hs : sequenceLength d = (utf8 c).length := by
      rw [e] at he ⊢
      exact enc_seqLen he
    have hx : isHexDigit d = false := by rw [← Bool.not_eq_true, hex_iff]; exact hd
    unfold matchEscapedCodePoint
    rw [e]
    simp [hx, hs, e]
  | atEnd => rfl

theorem valid_of {s : Bytes} (h : BeginsEscape s) (r : Bytes) : startsWithValidEscape (s ++ r) = true := by
  obtain ⟨c, t, rfl, h⟩ := h
  simp [startsWithValidEscape]
  rw [← Bool.not_eq_true, newline_iff]
  exact h

theorem valid_iff (s : Bytes) : startsWithValidEscape s = true ↔ BeginsEscape s := by
  constructor
  · intro h
    obtain ⟨c, t, e, h⟩ := validEscape_facts h
    exact ⟨c, t, e, h⟩
  · intro h
    have := valid_of h []
    simpa using this

theorem not_valid {s : Bytes} (h : ¬ BeginsEscape s) : startsWithValidEscape s = false := by
  rw [← Bool.not_eq_true, valid_iff]
  exact h

theorem valid_cons {c : UInt8} {t : Bytes} (h : c ≠ c!"\\") : startsWithValidEscape (c :: t) = false := by
  cases t <;> simp [startsWithValidEscape, h]

/-! ## Names -/

/-- The parts of a name, with modes. -/
def nameModes (ty : HT) (es : List (Bytes × Bytes)) (t : Bytes) : List (Bytes × HT × Mode) :=
  match es with
  | [] => [(t, ty, .forced)]
  | (u, w) :: es => (u, ty, .forced) :: (w, .string_escape, .normal) :: nameModes ty es t

theorem nameModes_name (ty : HT) (es : List (Bytes × Bytes)) (t : Bytes) :
    (nameModes ty es t).map (fun p => (p.1, p.2.1)) = name ty es t := by
  induction es with
  | nil => rfl
  | cons p es ih => simp [nameModes, name, ih]

theorem ident_at {es : List (Bytes × Bytes)} {t : Bytes} (h : IsName es t b) :
    matchIdentSequence (text es t ++ b) = (text es t).length := by
  induction es with
  | nil =>
    obtain ⟨h1, h2, h3⟩ := h
    show matchIdentSequence (t ++ b) = t.length
    rw [ident_chars (n := t.length) (by simp) (by simpa using h1), List.drop_left]
    rcases b with _ | ⟨c, b⟩
    · rfl
    · rw [ident_stop _ (not_valid h3)]
      · rfl
      · rw [← Bool.not_eq_true, isId_iff]
        exact h2 c rfl
  | cons p es ih =>
    obtain ⟨u, w⟩ := p
    obtain ⟨h1, h2, h3, h4⟩ := h
    show matchIdentSequence (u ++ (w ++ text es t) ++ b) = _
    have e : u ++ (w ++ text es t) ++ b = u ++ (w ++ (text es t ++ b)) := by simp
    rw [e, ident_chars (n := u.length) (by simp) (by simpa using h1), List.drop_left, ident_escape (valid_of h3 _), escape_at h2,
      List.drop_left, ih h4]
    simp [text]

theorem char_step {ty : HT} {u r : Bytes} {env : HEnv} {i k : Nat} {out : List Emit} (h : ∀ c ∈ u, IdChar c) (hk : k < u.length) :
    wp (identStep ty k) (fun q s => q = .inl (k + 1) ∧ s = ⟨u ++ r, i, out, x⟩) env ⟨u ++ r, i, out, x⟩ := by
  have hg : (u ++ r)[k]? = some u[k] := by rw [List.getElem?_append_left hk, List.getElem?_eq_getElem hk]
  have hc := h _ (List.getElem_mem hk)
  have hv : startsWithValidEscape ((u ++ r).drop k) = false := by
    rw [List.drop_append_of_le_length (by omega), List.drop_eq_getElem_cons hk]
    refine valid_cons ?_
    intro e
    rw [e] at hc
    exact not_idChar_backslash hc
  unfold identStep
  rw [wp_bind, wp_rem]
  simp only [hg, hv, (isId_iff _).2 hc]
  exact (wp_pure _).2 ⟨rfl, rfl⟩

theorem name_loop {ty : HT} {es : List (Bytes × Bytes)} {t : Bytes} (h : IsName es t b) {env : HEnv} {i fuel : Nat}
    {out : List Emit} (hi : i + (text es t ++ b).length = env.src.length) (hf : (text es t).length < fuel) :
    wp (HM.loop fuel (identStep ty) 0)
      (fun _ s => s = ⟨b, i + (text es t).length, out ++ modesEmit i (nameModes ty es t), x⟩) env
      ⟨text es t ++ b, i, out, x⟩ := by
  induction es generalizing i fuel out with
  | nil =>
    obtain ⟨h1, h2, h3⟩ := h
    simp only [text] at hf hi ⊢
    obtain ⟨f, rfl⟩ := Nat.exists_eq_add_of_le (show t.length + 1 ≤ fuel by omega)
    rw [show t.length + 1 + f = (f + 1) + t.length by omega]
    refine wp_loop_count t.length (fun k hk => ?_) (wp_loop_last ?_)
    · rw [Nat.zero_add]
      exact char_step h1 hk
    · rw [Nat.zero_add]
      unfold identStep
      rw [wp_bind, wp_rem]
      have hg : (t ++ b)[t.length]? = b.head? := by
        rw [List.getElem?_append_right (Nat.le_refl _), Nat.sub_self, List.head?_eq_getElem?]
      have fin : wp (do HM.emitAdvIf t.length ty .forced; pure (.inr ()) : HM Ext (Nat ⊕ Unit)) (fun r s => ∃ a, r = .inr a ∧
          s = ⟨b, i + t.length, out ++ modesEmit i (nameModes ty [] t), x⟩) env ⟨t ++ b, i, out, x⟩ := by
        rw [wp_bind, wp_emitMode rfl hi]
        exact (wp_pure _).2 ⟨(), rfl, rfl⟩
      simp only [hg, List.drop_left]
      cases hb : b.head? with
      | none => exact fin
      | some c =>
        have : isId c = false := by rw [← Bool.not_eq_true, isId_iff]; exact h2 c hb
        simp only [not_valid h3, this]
        exact fin
  | cons p es ih =>
    obtain ⟨u, w⟩ := p
    obtain ⟨h1, h2, h3, h4⟩ := h
    have e : text ((u, w) :: es) t ++ b = u ++ (w ++ (text es t ++ b)) := by simp [text]
    have hl : (text ((u, w) :: es) t).length = u.length + (w.length + (text es t).length) := by simp [text]
    rw [hl] at hf ⊢
    rw [e] at hi ⊢
    obtain ⟨w', rfl⟩ := escape_first h2
    obtain ⟨f, rfl⟩ := Nat.exists_eq_add_of_le (show u.length + 1 ≤ fuel by omega)
    rw [show u.length + 1 + f = (f + 1) + u.length by omega]
    refine wp_loop_count u.length (fun k hk => ?_) (wp_loop_next ?_)
    · rw [Nat.zero_add]
      exact char_step h1 hk
    · rw [Nat.zero_add]
      unfold identStep
      rw [wp_bind, wp_rem]
      have hg : (u ++ (c!"\\" :: w' ++ (text es t ++ b)))[u.length]? = some c!"\\" := by
        rw [List.getElem?_append_right (Nat.le_refl _), Nat.sub_self]
        rfl
      simp only [hg, List.drop_left, valid_of h3, if_true]
      rw [wp_bind, wp_emitMode rfl hi, wp_bind, wp_rem, wp_bind, escape_at h2]
      rw [wp_emit (by rfl) (by simp) (by simp at hi ⊢; omega)]
      refine (wp_pure _).2 ⟨0, rfl, ?_⟩
      refine wp_mono (ih h4 (by simp at hi ⊢; omega) (by simp at hf; omega)) ?_
      rintro _ _ rfl
      simp [nameModes, modesEmit, Nat.add_assoc]

theorem like_at {es : List (Bytes × Bytes)} {t : Bytes} (h : IsName es t b) :
    ∃ ty, matchIdentLike (text es t ++ b) = .ok ((text es t).length, ty) ∧ ∀ d, actualType d ty = nameType d b := by
  unfold matchIdentLike
  rw [ident_at h]
  have hg : (text es t ++ b)[(text es t).length]? = b.head? := by
    rw [List.getElem?_append_right (Nat.le_refl _), Nat.sub_self, List.head?_eq_getElem?]
  simp only [hg, List.drop_left]
  rw [if_neg (by simp)]
  cases hb : b.head? with
  | none => exact ⟨.ident, rfl, fun d => by simp [actualType, nameType, hb]; intro h; exact h.symm⟩
  | some c =>
    dsimp only
    split
    · rename_i hc
      refine ⟨.ident, rfl, fun d => ?_⟩
      simp [actualType, nameType, hb, hc]
      intro h; exact h.symm
    · rename_i hc
      have hc : c = c!"(" := by simpa using hc
      subst hc
      have : Ascii.equalsIgnoreCase b b!"url" = false := by
        rcases b with _ | ⟨d, b⟩
        · cases hb
        · cases hb
          simp [Ascii.equalsIgnoreCase, Ascii.sameIgnoringCase]
          intro _ h
          exact absurd h (by decide)
      rw [this]
      refine ⟨.function, rfl, fun d => ?_⟩
      simp [actualType, nameType, hb]

theorem wp_name {d : HT} {es : List (Bytes × Bytes)} {t : Bytes} (h : IsName es t b) (h0 : text es t ≠ []) {env : HEnv} {i : Nat}
    {out : List Emit} (hi : i + (text es t ++ b).length = env.src.length) :
    wp (consumeIdentLike d)
      (fun _ s => s = ⟨b, i + (text es t).length, out ++ modesEmit i (nameModes (nameType d b) es t), x⟩) env
      ⟨text es t ++ b, i, out, x⟩ := by
  obtain ⟨ty, h1, h2⟩ := like_at h
  unfold consumeIdentLike
  rw [wp_bind, wp_rem, wp_bind]
  have hl : HM.lift (σ := Ext) (matchIdentLike (text es t ++ b)) env ⟨text es t ++ b, i, out, x⟩ =
      .ok (((text es t).length, ty), ⟨text es t ++ b, i, out, x⟩) := by
    rw [h1]
    rfl
  rw [wp_of_ok hl, wp_bind, wp_hassert]
  refine ⟨by simpa using h0, ?_⟩
  rw [h2]
  exact name_loop h hi (by simp; omega)

/-! ## Numbers -/

theorem digits_at {p ds r : Bytes} (h : ∀ c ∈ ds, DecDigit c) :
    digitsFrom (p ++ (ds ++ r)) p.length = p.length + ds.length + (r.takeWhile isDigit).length := by
  unfold digitsFrom
  rw [List.drop_left, List.takeWhile_append_of_pos (fun c hc => (isDigit_iff c).2 (h c hc))]
  simp [Nat.add_assoc]

theorem exponent_le {t : Bytes} {k : Nat} : k ≤ numberExponent t k := by
  unfold numberExponent digitsFrom
  split
  · split
    · split
      · omega
      · split <;> omega
    · omega
  · omega

theorem exponent_at {p sgn ds r : Bytes} {e : UInt8} (he : e = c!"e" ∨ e = c!"E") (hs : sgn = [] ∨ sgn = b!"+" ∨ sgn = b!"-")
    (hd : ds ≠ []) (hd' : ∀ c ∈ ds, DecDigit c) :
    p.length + (e :: (sgn ++ ds)).length ≤ numberExponent (p ++ (e :: (sgn ++ ds) ++ r)) p.length := by
  obtain ⟨d, ds, rfl⟩ := List.exists_cons_of_ne_nil hd
  have h1 : isDigit d = true := (isDigit_iff d).2 (hd' d (by simp))
  have h2 : ∀ c ∈ ds, DecDigit c := fun c hc => hd' c (by simp [hc])
  have h3 : d ≠ c!"+" ∧ d ≠ c!"-" := by
    constructor <;> (rintro rfl; cases h1)
  have g : ∀ (n : Nat) (q : Bytes), (p ++ q)[p.length + n]? = q[n]? := by
    intro n q
    rw [List.getElem?_append_right (by omega), Nat.add_sub_cancel_left]
  unfold numberExponent
  rw [show p.length = p.length + 0 from rfl, g, Nat.add_zero, g, g]
  have he' : (e = c!"e" || e = c!"E") = true := by simpa using he
  rcases hs with rfl | rfl | rfl
  · have := digits_at (p := p ++ [e, d]) (r := r) h2
    simp at this
    simp [he, h1, h3, this]
    omega
  · have := digits_at (p := p ++ [e, c!"+", d]) (r := r) h2
    simp at this
    simp [he, h1, this]
    omega
  · have := digits_at (p := p ++ [e, c!"-", d]) (r := r) h2
    simp at this
    simp [he, h1, this]
    omega

theorem number_le {w : Bytes} (h : Number w) (b : Bytes) :
    startsWithNumber (w ++ b) = true ∧ w.length ≤ matchNumber (w ++ b) := by
  obtain ⟨sign, int, frac, exp, rfl, hs, hi, hf, he, ne⟩ := h.parts
  have hd : ∃ c r, int ++ frac = c :: r ∧ (DecDigit c ∨ c = c!"." ∧ ∃ d r', r = d :: r' ∧ DecDigit d) := by
    rcases int with _ | ⟨c, int⟩
    · rcases hf with rfl | ⟨ds, rfl, h1, h2⟩
      · simp at ne
      · obtain ⟨d, ds, rfl⟩ := List.exists_cons_of_ne_nil h1
        exact ⟨_, _, rfl, .inr ⟨rfl, _, _, rfl, h2 _ (by simp)⟩⟩
    · exact ⟨_, _, rfl, .inl (hi _ (by simp))⟩
  obtain ⟨c, r, e, hc⟩ := hd
  have hu : ∀ q, startsWithUnsigned (c :: r ++ q) = true := by
    intro q
    unfold startsWithUnsigned
    rcases hc with hc | ⟨rfl, d, r', rfl, hd⟩
    · simp [(isDigit_iff c).2 hc]
    · simp [(isDigit_iff d).2 hd]
  have hc' : c ≠ c!"+" ∧ c ≠ c!"-" := by
    rcases hc with hc | ⟨rfl, _⟩
    · constructor <;> (rintro rfl; revert hc; unfold DecDigit; decide)
    · decide
  have et : sign ++ int ++ frac ++ exp ++ b = sign ++ (int ++ (frac ++ (exp ++ b))) := by simp
  have et' : sign ++ int ++ frac ++ exp ++ b = sign ++ (c :: r ++ (exp ++ b)) := by rw [← e]; simp
  have hm : startsWithNumber (sign ++ int ++ frac ++ exp ++ b) = true ∧ matchNumber (sign ++ int ++ frac ++ exp ++ b) =
      numberExponent (sign ++ (int ++ (frac ++ (exp ++ b)))) (numberFraction (sign ++ (int ++ (frac ++ (exp ++ b))))
        (digitsFrom (sign ++ (int ++ (frac ++ (exp ++ b)))) sign.length)) := by
    unfold matchNumber startsWithNumber
    rw [← et, et']
    rcases hs with rfl | rfl | rfl
    · have : (startsWith ([] ++ (c :: r ++ (exp ++ b))) b!"+" || startsWith ([] ++ (c :: r ++ (exp ++ b))) b!"-") = false := by
        simp only [List.nil_append, List.cons_append, Bool.or_eq_false_iff]
        exact ⟨startsWith_one_false (by simpa using hc'.1), startsWith_one_false (by simpa using hc'.2)⟩
      rw [this]
      simpa using hu (exp ++ b)
    · simpa [startsWith] using hu (exp ++ b)
    · simpa [startsWith] using hu (exp ++ b)
  refine ⟨hm.1, ?_⟩
  rw [hm.2, digits_at hi]
  have hx : ∀ q, exp ≠ [] → ((exp ++ q).takeWhile isDigit).length = 0 := by
    intro q hne
    rcases he with rfl | ⟨e, sgn, ds, rfl, he, _⟩
    · exact absurd rfl hne
    · rcases he with rfl | rfl <;> rfl
  have fin : ∀ p, sign ++ (int ++ (frac ++ (exp ++ b))) = p ++ (exp ++ b) → exp ≠ [] →
      p.length + exp.length ≤ numberExponent (sign ++ (int ++ (frac ++ (exp ++ b)))) p.length := by
    intro p ep hne
    rw [ep]
    rcases he with rfl | ⟨e, sgn, ds, rfl, h1, h2, h3, h4⟩
    · exact absurd rfl hne
    · exact exponent_at h1 h2 h3 h4
  have frac_le : ∀ t k, k ≤ numberFraction t k := by
    intro t k
    unfold numberFraction digitsFrom
    split
    · split <;> omega
    · omega
  rcases hf with rfl | ⟨ds, rfl, h1, h2⟩
  · by_cases hne : exp = []
    · subst hne
      have h1 := frac_le (sign ++ (int ++ ([] ++ ([] ++ b)))) (sign.length + int.length + (([] ++ ([] ++ b)).takeWhile isDigit).length)
      have h2 := @exponent_le (sign ++ (int ++ ([] ++ ([] ++ b)))) (numberFraction (sign ++ (int ++ ([] ++ ([] ++ b))))
        (sign.length + int.length + (([] ++ ([] ++ b)).takeWhile isDigit).length))
      simp only [List.length_append, List.length_nil]
      omega
    · rw [List.nil_append, hx b hne]
      have h0 : numberFraction (sign ++ (int ++ (exp ++ b))) (sign.length + int.length + 0) = sign.length + int.length := by
        unfold numberFraction
        have : (sign ++ (int ++ (exp ++ b)))[sign.length + int.length + 0]? = exp.head? := by
          rw [← List.append_assoc, List.getElem?_append_right (by simp), show _ - (sign ++ int).length = 0 by simp,
            ← List.head?_eq_getElem?]
          cases exp <;> simp at hne ⊢
        rw [this]
        rcases he with rfl | ⟨e, sgn, ds, rfl, he, _⟩
        · exact absurd rfl hne
        · have hp : e ≠ c!"." := by rcases he with rfl | rfl <;> decide
          simp only [List.head?_cons]
          cases (sign ++ (int ++ (e :: (sgn ++ ds) ++ b)))[sign.length + int.length + 0 + 1]? <;> simp [hp]
      rw [h0]
      have := fin (sign ++ int) (by simp) hne
      simp only [List.nil_append, List.length_append] at this
      simpa [Nat.add_assoc] using this
  · obtain ⟨d, ds, rfl⟩ := List.exists_cons_of_ne_nil h1
    have hd : isDigit d = true := (isDigit_iff d).2 (h2 d (by simp))
    have hds : ∀ c ∈ ds, DecDigit c := fun c hc => h2 c (by simp [hc])
    have h0 : ((c!"." :: d :: ds ++ (exp ++ b)).takeWhile isDigit).length = 0 := rfl
    rw [h0]
    have hf : numberFraction (sign ++ (int ++ (c!"." :: d :: ds ++ (exp ++ b)))) (sign.length + int.length + 0) =
        sign.length + int.length + 2 + ds.length + ((exp ++ b).takeWhile isDigit).length := by
      have g : ∀ n, (sign ++ (int ++ (c!"." :: d :: ds ++ (exp ++ b))))[sign.length + int.length + n]? =
          (c!"." :: d :: ds ++ (exp ++ b))[n]? := by
        intro n
        rw [← List.append_assoc, List.getElem?_append_right (by simp), show _ - (sign ++ int).length = n by simp]
      unfold numberFraction
      rw [g, Nat.add_zero, g]
      have := digits_at (p := sign ++ int ++ [c!".", d]) (r := exp ++ b) hds
      simp at this
      simp [hd]
      rw [show sign.length + int.length + 2 = sign.length + (int.length + 2) by omega]
      omega
    rw [hf]
    by_cases hne : exp = []
    · subst hne
      refine Nat.le_trans ?_ exponent_le
      simp
      omega
    · rw [hx b hne]
      have := fin (sign ++ int ++ (c!"." :: d :: ds)) (by simp) hne
      simp at this ⊢
      rw [show sign.length + int.length + 2 + ds.length = sign.length + (int.length + (ds.length + 1 + 1)) by omega]
      omega

theorem beginsNumber_iff (s : Bytes) : startsWithNumber s = true ↔ BeginsNumber s := by
  constructor
  · intro h
    obtain ⟨_, h1, h2, _⟩ := number_facts h
    exact ⟨_, h1, h2⟩
  · rintro ⟨n, _, h⟩
    have := (number_le h (s.drop n)).1
    rwa [List.take_append_drop] at this

theorem number_at {w : Bytes} (h : IsNumber w b) : startsWithNumber (w ++ b) = true ∧ matchNumber (w ++ b) = w.length := by
  obtain ⟨h1, h2⟩ := number_le h.1 b
  obtain ⟨_, h4, h5, _⟩ := number_facts h1
  refine ⟨h1, ?_⟩
  rcases Nat.lt_or_eq_of_le h2 with h' | h'
  · exact absurd h5 (h.2 _ h' h4)
  · exact h'.symm

theorem number_ne {w : Bytes} (h : Number w) : w ≠ [] := by
  obtain ⟨sign, int, frac, exp, rfl, _, _, _, _, ne⟩ := h.parts
  intro e
  simp at e
  simp [e] at ne

theorem start_iff (c : UInt8) : isIdStart c = true ↔ IdStart c := by
  simp [isIdStart, IdStart, isAlpha_iff]

theorem beginsName_iff (s : Bytes) : startsWithIdent s = true ↔ BeginsName s := by
  have nb : ∀ {c : UInt8} {t : Bytes}, BeginsEscape (c :: t) → c = c!"\\" := by
    rintro c t ⟨d, u, e, _⟩
    cases e
    rfl
  constructor
  · intro h
    unfold startsWithIdent at h
    split at h
    · cases h
    · rename_i a t
      split at h
      · rename_i ha
        subst ha
        rw [Bool.or_eq_true] at h
        rcases h with h | h
        · split at h
          · cases h
          · exact .dash ((start_iff _).1 h)
        · exact .dashEscape ((valid_iff _).1 h)
      · rw [Bool.or_eq_true] at h
        rcases h with h | h
        · exact .char ((start_iff _).1 h)
        · exact .escape ((valid_iff _).1 h)
  · intro h
    cases h with
    | @char c t h =>
      have : c ≠ c!"-" := by rintro rfl; exact absurd ((start_iff _).2 h) (by decide)
      simp [startsWithIdent, this, (start_iff _).2 h]
    | dash h => simp [startsWithIdent, (start_iff _).2 h]
    | escape h =>
      obtain ⟨c, t, rfl, h'⟩ := id h
      simp [startsWithIdent, (valid_iff _).2 h]
    | dashEscape h => simp [startsWithIdent, (valid_iff _).2 h]

theorem not_beginsName {s : Bytes} (h : ¬ BeginsName s) : startsWithIdent s = false := by
  rw [← Bool.not_eq_true, beginsName_iff]
  exact h

theorem not_beginsNumber {s : Bytes} (h : ¬ BeginsNumber s) : startsWithNumber s = false := by
  rw [← Bool.not_eq_true, beginsNumber_iff]
  exact h

/-! ## Strings -/

theorem text_append (es : List (Bytes × Bytes)) (t u : Bytes) : text es (t ++ u) = text es t ++ u := by
  induction es with
  | nil => rfl
  | cons p es ih => simp [text, ih]

theorem quote_newline (c : UInt8) : ¬ (c ∈ b!"'\"" ∧ isNewline c = true) := by
  revert c; apply forall_byte; decide +kernel

theorem plain_step {q : UInt8} {o u r : Bytes} {env : HEnv} {i k : Nat} {out : List Emit}
    (h : ∀ c ∈ u, c ≠ q ∧ ¬ Newline c ∧ c ≠ c!"\\") (hk : k < u.length) :
    wp (stringStep q (o.length + k)) (fun p s => p = .inl (o.length + k + 1) ∧ s = ⟨o ++ (u ++ r), i, out, x⟩) env
      ⟨o ++ (u ++ r), i, out, x⟩ := by
  have hg : (o ++ (u ++ r))[o.length + k]? = some u[k] := by
    rw [List.getElem?_append_right (by omega), Nat.add_sub_cancel_left, List.getElem?_append_left hk, List.getElem?_eq_getElem hk]
  obtain ⟨h1, h2, h3⟩ := h _ (List.getElem_mem hk)
  unfold stringStep
  rw [wp_bind, wp_rem]
  rw [← newline_iff, Bool.not_eq_true] at h2
  simp only [hg, h1, h2, h3, if_false]
  exact (wp_pure _).2 ⟨rfl, rfl⟩

theorem string_loop {q : UInt8} {es : List (Bytes × Bytes)} {t l : Bytes} (hq : q ∈ b!"'\"") (h : IsContent q es t (l ++ b))
    (hl : l = [q] ∨ l = [] ∧ ∀ c, b.head? = some c → Newline c) {o : Bytes} {env : HEnv} {i fuel : Nat}
    {out : List Emit} (hi : i + (o ++ (text es t ++ (l ++ b))).length = env.src.length) (hf : (text es t).length < fuel) :
    wp (HM.loop fuel (stringStep q) o.length)
      (fun _ s => s = ⟨b, i + (o ++ (text es t ++ l)).length, out ++ partsEmit i (Spec.Css.string o es (t ++ l)), x⟩) env
      ⟨o ++ (text es t ++ (l ++ b)), i, out, x⟩ := by
  induction es generalizing i fuel out o with
  | nil =>
    simp only [text] at hf hi ⊢
    obtain ⟨f, rfl⟩ := Nat.exists_eq_add_of_le (show t.length + 1 ≤ fuel by omega)
    rw [show t.length + 1 + f = (f + 1) + t.length by omega]
    refine wp_loop_count t.length (fun k hk => ?_) (wp_loop_last ?_)
    · exact plain_step h hk
    · unfold stringStep
      rw [wp_bind, wp_rem]
      have hg : (o ++ (t ++ (l ++ b)))[o.length + t.length]? = (l ++ b).head? := by
        rw [← List.append_assoc, List.getElem?_append_right (by simp), show _ - (o ++ t).length = 0 by simp, List.head?_eq_getElem?]
      have e : o ++ (t ++ (l ++ b)) = (o ++ t ++ l) ++ b := by simp
      simp only [hg]
      rcases hl with rfl | ⟨rfl, hl⟩
      · show wp (if q = q then _ else _) _ _ _
        rw [if_pos rfl, e, wp_bind, wp_emitNonempty (by simp [Nat.add_assoc]) (by simpa using hi)]
        refine (wp_pure _).2 ⟨(), rfl, ?_⟩
        simp [Spec.Css.string, partsEmit, Nat.add_assoc]
      · have fin : wp (do HM.emitAdvIf (o.length + t.length) .string; pure (.inr ()) : HM Ext (Nat ⊕ Unit)) (fun r s => ∃ a, r = .inr a ∧
            s = ⟨b, i + (o ++ (t ++ [])).length, out ++ partsEmit i (Spec.Css.string o [] (t ++ [])), x⟩) env
            ⟨o ++ (t ++ ([] ++ b)), i, out, x⟩ := by
          rw [e, wp_bind, wp_emitNonempty (by simp) (by simpa using hi)]
          refine (wp_pure _).2 ⟨(), rfl, ?_⟩
          simp [Spec.Css.string, partsEmit]
        cases hb : b.head? with
        | none =>
          simp only [List.nil_append, hb] at fin ⊢
          exact fin
        | some c =>
          have hc := hl c hb
          have : c ≠ q := by
            rintro rfl
            rw [← newline_iff] at hc
            exact quote_newline c ⟨hq, hc⟩
          simp only [List.nil_append, hb, this, (newline_iff c).2 hc, if_false, if_true] at fin ⊢
          exact fin
  | cons p es ih =>
    obtain ⟨u, w⟩ := p
    obtain ⟨h1, h2, h4⟩ := h
    have e : o ++ (text ((u, w) :: es) t ++ (l ++ b)) = o ++ (u ++ (w ++ (text es t ++ (l ++ b)))) := by simp [text]
    have hl' : (text ((u, w) :: es) t).length = u.length + (w.length + (text es t).length) := by simp [text]
    rw [hl'] at hf
    rw [e] at hi ⊢
    obtain ⟨w', rfl⟩ := escape_first h2
    obtain ⟨f, rfl⟩ := Nat.exists_eq_add_of_le (show u.length + 1 ≤ fuel by omega)
    rw [show u.length + 1 + f = (f + 1) + u.length by omega]
    refine wp_loop_count u.length (fun k hk => ?_) (wp_loop_next ?_)
    · exact plain_step h1 hk
    · unfold stringStep
      rw [wp_bind, wp_rem]
      have hg : (o ++ (u ++ (c!"\\" :: w' ++ (text es t ++ (l ++ b)))))[o.length + u.length]? = some c!"\\" := by
        rw [← List.append_assoc, List.getElem?_append_right (by simp), show _ - (o ++ u).length = 0 by simp]
        rfl
      have hq1 : c!"\\" ≠ q := by rintro rfl; exact absurd hq (by decide)
      have hq2 : isNewline c!"\\" = false := by decide
      simp only [hg, hq1, hq2, if_false, if_true, Bool.false_eq_true]
      rw [← List.append_assoc o u, wp_bind, wp_emitNonempty (a := o ++ u) (by simp) (by simpa using hi), wp_bind, wp_rem, wp_bind,
        escape_at h2]
      rw [wp_emit (by rfl) (by simp) (by simp at hi ⊢; omega)]
      refine (wp_pure _).2 ⟨0, rfl, ?_⟩
      refine wp_mono (ih (o := []) h4 (by simp at hi ⊢; omega) (by simp at hf; omega)) ?_
      rintro _ _ rfl
      simp [Spec.Css.string, partsEmit, text, Nat.add_assoc, optEmit]
      omega

/-! ## Comments -/

theorem comment_at {t : Bytes} (h : UpTo b!"*/" (t ++ b!"*/" ++ b) t.length) {env : HEnv} {i : Nat} {out : List Emit}
    (hi : i + (b!"/*" ++ t ++ b!"*/" ++ b).length = env.src.length) :
    commentStep () env ⟨b!"/*" ++ t ++ b!"*/" ++ b, i, out, x⟩ = .ok (.inl (), ⟨b, i + (b!"/*" ++ t ++ b!"*/").length,
      out ++ partsEmit i [(b!"/*", .comment_delim), (t, .comment), (b!"*/", .comment_delim)], x⟩) := by
  refine ok_of_wp ?_
  unfold commentStep
  rw [wp_bind, wp_rem, Cpp.matchBlockComment_at h]
  dsimp only
  rw [if_pos (by simp), wp_bind, Cpp.wp_highlightBlockComment_iff hi (by simp)]
  refine (wp_pure _).2 ⟨rfl, ?_⟩
  have e : b!"/*" ++ t ++ b!"*/" ++ b = (b!"/*" ++ t ++ b!"*/") ++ b := by simp
  have el : t.length + 4 = (b!"/*" ++ t ++ b!"*/").length := by simp
  rw [el, List.drop_left]
  simp [partsEmit, optEmit, Nat.add_assoc]

theorem open_comment_at {t : Bytes} (h : ∀ k, ¬ OccursAt b!"*/" t k) {env : HEnv} {i : Nat} {out : List Emit}
    (hi : i + (b!"/*" ++ t).length = env.src.length) :
    commentStep () env ⟨b!"/*" ++ t, i, out, x⟩ = .ok (.inl (), ⟨[], i + (b!"/*" ++ t).length,
      out ++ partsEmit i [(b!"/*", .comment_delim), (t, .comment)], x⟩) := by
  refine ok_of_wp ?_
  have hm : Cpp.matchBlockComment (b!"/*" ++ t) = ⟨t.length + 2, false⟩ := by
    unfold Cpp.matchBlockComment
    have : findSub b!"*/" t = none := by
      have key := findSub_spec b!"*/" t
      cases hf : findSub b!"*/" t with
      | none => rfl
      | some k =>
        rw [hf] at key
        exact absurd key.1 (h k)
    simp [this, startsWith]
  unfold commentStep
  rw [wp_bind, wp_rem, hm]
  dsimp only
  rw [if_pos (by simp), wp_bind]
  unfold Cpp.highlightBlockComment
  rw [wp_bind, wp_index, wp_bind, wp_emit_iff (by omega) (by simp at hi ⊢; omega), wp_bind]
  simp only [Bool.false_eq_true, if_false, Nat.sub_zero, Nat.add_sub_cancel]
  rw [wp_emitIf_iff (by simp at hi ⊢; omega), wp_bind, Cpp.emitWhen, if_neg (by simp), wp_pure, wp_advance_iff (by simp)]
  refine (wp_pure _).2 ⟨rfl, ?_⟩
  simp [partsEmit, optEmit, HS.adv, Nat.add_assoc]

theorem no_comment_at {s : Bytes} (h : startsWith s b!"/*" = false) {env : HEnv} {i : Nat} {out : List Emit} :
    commentStep () env ⟨s, i, out, x⟩ = .ok (.inr (), ⟨s, i, out, x⟩) := by
  refine ok_of_wp ?_
  have hm : Cpp.matchBlockComment s = {} := by
    unfold Cpp.matchBlockComment
    rw [h]
    rfl
  unfold commentStep
  rw [wp_bind, wp_rem, hm]
  exact (wp_pure _).2 ⟨rfl, rfl⟩

theorem loop_inl {σ α β : Type} {body : β → HM σ (β ⊕ α)} {env : HEnv} {s t : HS σ} {i j : β} {fuel : Nat}
    (h : body i env s = .ok (.inl j, t)) : HM.loop (fuel + 1) body i env s = HM.loop fuel body j env t := by
  conv => lhs; unfold HM.loop
  show HM.bind _ _ _ _ = _
  unfold HM.bind
  rw [h]

theorem loop_inr {σ α β : Type} {body : β → HM σ (β ⊕ α)} {env : HEnv} {s t : HS σ} {i : β} {r : α} {fuel : Nat}
    (h : body i env s = .ok (.inr r, t)) : HM.loop (fuel + 1) body i env s = .ok (r, t) := by
  conv => lhs; unfold HM.loop
  show HM.bind _ _ _ _ = _
  unfold HM.bind
  rw [h]
  rfl

theorem comments_ok {env : HEnv} {s : Bytes} {i : Nat} {out : List Emit} (hi : i + s.length = env.src.length) :
    ∃ t, HM.loop (s.length + 1) commentStep () env ⟨s, i, out, x⟩ = .ok ((), t) := by
  induction hn : s.length using Nat.strongRecOn generalizing s i out with
  | ind n ih =>
    subst hn
    cases hs : startsWith s b!"/*" with
    | false => exact ⟨_, loop_inr (no_comment_at hs)⟩
    | true =>
      obtain ⟨t, rfl⟩ := startsWith_iff.1 hs
      cases hf : findSub b!"*/" t with
      | none =>
        have h : ∀ k, ¬ OccursAt b!"*/" t k := by
          have key := findSub_spec b!"*/" t
          rwa [hf] at key
        rw [loop_inl (open_comment_at h hi)]
        exact ⟨_, loop_inr (no_comment_at rfl)⟩
      | some k =>
        obtain ⟨t, b, rfl, h⟩ : ∃ u b, t = u ++ b!"*/" ++ b ∧ UpTo b!"*/" (u ++ b!"*/" ++ b) u.length := by
          have h := upTo_of_find hf
          have key := findSub_spec b!"*/" t
          rw [hf] at key
          obtain ⟨u, b, rfl, rfl⟩ := key.1
          exact ⟨u, b, rfl, h⟩
        have e : b!"/*" ++ (t ++ b!"*/" ++ b) = b!"/*" ++ t ++ b!"*/" ++ b := by simp
        rw [e] at hi ⊢
        rw [loop_inl (comment_at h hi)]
        obtain ⟨s, hs⟩ := ih b.length (by simp; omega) (s := b) (i := i + (b!"/*" ++ t ++ b!"*/").length)
          (out := out ++ partsEmit i [(b!"/*", .comment_delim), (t, .comment), (b!"*/", .comment_delim)])
          (by simp at hi ⊢; omega) rfl
        refine ⟨s, ?_⟩
        have := loop_mono hs (t.length + 3)
        rw [show (b!"/*" ++ t ++ b!"*/" ++ b).length = b.length + 1 + (t.length + 3) by simp; omega]
        exact this

theorem skip_comment {t : Bytes} (h : UpTo b!"*/" (t ++ b!"*/" ++ b) t.length) : Skipped step opts x (b!"/*" ++ t ++ b!"*/")
    (parts 0 [(b!"/*", .comment_delim), (t, .comment), (b!"*/", .comment_delim)]) b x := by
  rw [← partsEmit_token]
  refine ⟨_, rfl, fun debug src i out hi => ?_⟩
  rw [partsEmit_moved, Nat.add_zero]
  have key : consumeComments ⟨debug, opts, src⟩ ⟨b!"/*" ++ t ++ b!"*/" ++ b, i, out, x⟩ =
      consumeComments ⟨debug, opts, src⟩ ⟨b, i + (b!"/*" ++ t ++ b!"*/").length,
      out ++ partsEmit i [(b!"/*", .comment_delim), (t, .comment), (b!"*/", .comment_delim)], x⟩ := by
    show HM.loop _ _ _ _ _ = HM.loop _ _ _ _ _
    dsimp only
    rw [loop_inl (comment_at h hi)]
    obtain ⟨s, hs⟩ := comments_ok (x := x) (env := ⟨debug, opts, src⟩) (s := b) (i := i + (b!"/*" ++ t ++ b!"*/").length)
          (out := out ++ partsEmit i [(b!"/*", .comment_delim), (t, .comment), (b!"*/", .comment_delim)])
          (by simp at hi ⊢; omega)
    rw [hs]
    have := loop_mono hs (t.length + 3)
    rw [show (b!"/*" ++ t ++ b!"*/" ++ b).length = b.length + 1 + (t.length + 3) by simp; omega]
    exact this
  show HM.bind _ _ _ _ = HM.bind _ _ _ _
  unfold HM.bind
  rw [key]

theorem last_comment {t : Bytes} {ts : List Emit} (ht : t ≠ []) (h : ∀ env i out, i + t.length = env.src.length →
    commentStep () env ⟨t, i, out, x⟩ = .ok (.inl (), ⟨[], i + t.length, out ++ ts.map (Emit.moved i), x⟩)) :
    Found step opts x t (ts.map Emit.token) [] x := by
  refine found_of fun env i out _ hi => ?_
  rw [List.append_nil] at hi ⊢
  unfold step
  rw [wp_bind]
  have : consumeComments env ⟨t, i, out, x⟩ = .ok ((), ⟨[], i + t.length, out ++ ts.map (Emit.moved i), x⟩) := by
    show HM.loop _ _ _ _ _ = _
    dsimp only
    rw [loop_inl (h _ _ _ hi)]
    cases t with
    | nil => exact absurd rfl ht
    | cons c t => exact loop_inr (no_comment_at rfl)
  rw [wp_of_ok this, wp_bind, wp_rem]
  exact (wp_pure _).2 rfl

/-- What is done for anything but a comment. -/
theorem found_case {y : Ext} {c : UInt8} {a : Bytes} {ts : List Token} (h : startsWith (c :: a ++ b) b!"/*" = false)
    (hf : Found (caseChar c) opts x (c :: a) ts b y) : Found step opts x (c :: a) ts b y := by
  obtain ⟨es, h1, h2⟩ := hf
  refine ⟨es, h1, fun debug src i out hi => ?_⟩
  unfold step
  rw [wp_bind]
  have : consumeComments ⟨debug, opts, src⟩ ⟨c :: a ++ b, i, out, x⟩ = .ok ((), ⟨c :: a ++ b, i, out, x⟩) :=
    loop_inr (no_comment_at h)
  rw [wp_of_ok this, wp_bind, wp_rem]
  exact h2 debug src i out hi

theorem found_case' {y : Ext} {c : UInt8} {a : Bytes} {ts : List Token} (h : c ≠ c!"/")
    (hf : Found (caseChar c) opts x (c :: a) ts b y) : Found step opts x (c :: a) ts b y := by
  refine found_case ?_ hf
  rw [List.cons_append, startsWith_cons_cons]
  simp [Ne.symm h]

/-! ## The other elements -/

/-- The bytes that have a case of their own, except the digits. -/
def cased : Bytes := b!" \t\r\n\"'#().+-,:;<>~*@![]\\{}" ++ [0x0C]

theorem case_default {c : UInt8} (h : c ∉ cased) (h' : isDigit c = false) : caseChar c = caseDefault c := by
  simp [cased] at h
  simp [caseChar, h, h']

theorem case_digit {c : UInt8} (h : isDigit c = true) : caseChar c = consumeNumeric := by
  have : ∀ c : UInt8, ¬ (isDigit c = true ∧ c ∈ cased) := by apply forall_byte; decide +kernel
  have hc : c ∉ cased := fun hc => this c ⟨h, hc⟩
  simp [cased] at hc
  simp [caseChar, hc, h]

theorem start_cased {c : UInt8} (h : isIdStart c = true) : c ∉ cased ∧ isDigit c = false ∧ c ≠ c!"/" := by
  have : ∀ c : UInt8, isIdStart c = true → c ∉ cased ∧ isDigit c = false ∧ c ≠ c!"/" := by apply forall_byte; decide +kernel
  exact this c h

theorem found_emit {m : HM Ext Unit} {c : UInt8} {ty : HT} {mode : Mode} (h : m = HM.emitAdv 1 ty mode) :
    Found m opts x [c] [⟨0, 1, ty⟩] b x := by
  subst h
  refine found_one (mode := mode) fun env i out _ hi => ?_
  rw [wp_emit (by rfl) (by simp) hi]
  rfl

theorem case_number {c : UInt8} {r : Bytes} (h : startsWithNumber (c :: r) = true) {env : HEnv} {i : Nat} {out : List Emit}
    {Q : Unit → HS Ext → Prop} (hq : wp consumeNumeric Q env ⟨c :: r, i, out, x⟩) : c ≠ c!"/" ∧ wp (caseChar c) Q env ⟨c :: r, i, out, x⟩ := by
  by_cases hd : isDigit c = true
  · refine ⟨by (rintro rfl; cases hd), ?_⟩
    rw [case_digit hd]
    exact hq
  · have hc : c = c!"+" ∨ c = c!"-" ∨ c = c!"." := by
      unfold startsWithNumber at h
      split at h
      · rename_i hs
        simp [startsWith] at hs
        grind
      · unfold startsWithUnsigned at h
        simp [hd] at h
        exact .inr (.inr h.1)
    rcases hc with rfl | rfl | rfl
    · refine ⟨by decide, ?_⟩
      show wp (caseSign _) _ _ _
      unfold caseSign
      rw [wp_bind, wp_rem, wp_bind, wp_get]
      dsimp only
      rw [h]
      exact hq
    · refine ⟨by decide, ?_⟩
      show wp (caseSign _) _ _ _
      unfold caseSign
      rw [wp_bind, wp_rem, wp_bind, wp_get]
      dsimp only
      rw [h]
      exact hq
    · refine ⟨by decide, ?_⟩
      show wp caseDot _ _ _
      unfold caseDot
      rw [wp_bind, wp_rem, wp_bind, wp_get]
      dsimp only
      rw [h]
      exact hq

theorem wp_number {w : Bytes} (h : IsNumber w b) {env : HEnv} {i : Nat} {out : List Emit} {Q : Unit → HS Ext → Prop}
    (hi : i + (w ++ b).length = env.src.length)
    (hq : wp (do
      let r ← HM.rem
      if startsWithIdent r then consumeIdentLike .number_decor
      else if startsWith r b!"%" then HM.emitAdv 1 .number_decor
      else pure ()) Q env ⟨b, i + w.length, out ++ [⟨i, w.length, .number, .normal⟩], x⟩) :
    wp consumeNumeric Q env ⟨w ++ b, i, out, x⟩ := by
  have hw := number_ne h.1
  have hp := List.length_pos_iff.2 hw
  unfold consumeNumeric consumeNumber
  rw [wp_bind, wp_bind, wp_rem, (number_at h).2]
  dsimp only
  rw [wp_bind, wp_hassert]
  refine ⟨by simp [hw], ?_⟩
  rw [wp_emit rfl hp hi]
  exact hq

theorem found_number {w a : Bytes} {ps : List (Bytes × HT × Mode)} (h : IsNumber w (a ++ b))
    (hq : ∀ (env : HEnv) i out, i + (a ++ b).length = env.src.length → wp (do
      let r ← HM.rem
      if startsWithIdent r then consumeIdentLike .number_decor
      else if startsWith r b!"%" then HM.emitAdv 1 .number_decor
      else pure ()) (fun _ s => s = ⟨b, i + a.length, out ++ modesEmit i ps, x⟩) env ⟨a ++ b, i, out, x⟩) :
    Found step opts x (w ++ a) (parts 0 ((w, .number) :: ps.map fun p => (p.1, p.2.1))) b x := by
  have h1 := (number_at h).1
  have hw := number_ne h.1
  obtain ⟨c, w, rfl⟩ := List.exists_cons_of_ne_nil hw
  have key : ∀ (env : HEnv) i out, i + (c :: w ++ a ++ b).length = env.src.length → c ≠ c!"/" ∧ wp (caseChar c)
      (fun _ s => s = ⟨b, i + (c :: w ++ a).length, out ++ modesEmit i ((c :: w, .number, .normal) :: ps), x⟩) env
      ⟨c :: w ++ a ++ b, i, out, x⟩ := by
    intro env i out hi
    rw [List.append_assoc] at hi ⊢
    refine case_number h1 (wp_number (w := c :: w) h hi ?_)
    refine wp_mono (hq _ _ _ (by simp at hi ⊢; omega)) ?_
    rintro _ _ rfl
    simp [modesEmit, Nat.add_assoc]
    omega
  have hc : c ≠ c!"/" := (key ⟨false, opts, c :: w ++ a ++ b⟩ 0 [] (by simp)).1
  exact found_case' hc (found_modes (ps := (c :: w, .number, .normal) :: ps) fun env i out _ hi => (key env i out hi).2)

theorem found_name {es : List (Bytes × Bytes)} {t : Bytes} (h : IsName es t b) (h0 : text es t ≠ [])
    (h' : BeginsName (text es t ++ b)) (h'' : (text es t).head? ≠ some c!"-") :
    Found step opts x (text es t) (parts 0 (Spec.Css.name (nameType x.ctx.type b) es t)) b x := by
  have key : ∀ (env : HEnv) i out, i + (text es t ++ b).length = env.src.length → wp (consumeIdentLike x.ctx.type) _ env
    ⟨text es t ++ b, i, out, x⟩ := fun env i out hi => wp_name (d := x.ctx.type) h h0 hi
  rw [← nameModes_name]
  generalize text es t = a at *
  obtain ⟨c, a, rfl⟩ := List.exists_cons_of_ne_nil h0
  have hc : isIdStart c = true ∨ c = c!"\\" ∧ BeginsEscape (c :: a ++ b) := by
    generalize e : c :: a ++ b = s at h' ⊢
    cases h' with
    | char h =>
      obtain ⟨rfl, -⟩ := List.cons.inj (show c :: (a ++ b) = _ from e)
      exact .inl ((start_iff _).2 h)
    | dash h =>
      obtain ⟨rfl, -⟩ := List.cons.inj (show c :: (a ++ b) = _ from e)
      simp at h''
    | escape h =>
      obtain ⟨_, _, rfl, _⟩ := id h
      obtain ⟨rfl, -⟩ := List.cons.inj (show c :: (a ++ b) = _ from e)
      exact .inr ⟨rfl, h⟩
    | dashEscape h =>
      obtain ⟨rfl, -⟩ := List.cons.inj (show c :: (a ++ b) = _ from e)
      simp at h''
  rcases hc with hc | ⟨rfl, he⟩
  · obtain ⟨h1, h2, h3⟩ := start_cased hc
    refine found_case' h3 (found_modes fun env i out _ hi => ?_)
    rw [case_default h1 h2, caseDefault, wp_bind, wp_get, if_pos hc]
    exact key env i out hi
  · refine found_case' (by decide) (found_modes fun env i out _ hi => ?_)
    show wp caseBackslash _ _ _
    unfold caseBackslash
    rw [wp_bind, wp_rem, wp_bind, wp_get]
    dsimp only
    rw [if_pos ((valid_iff _).2 he)]
    exact key env i out hi

theorem found_dash {es : List (Bytes × Bytes)} {t u : Bytes} (h : IsName es t b) (e : text es t = c!"-" :: u)
    (h' : BeginsName (u ++ b)) :
    Found step opts x (text es t) (parts 0 (Spec.Css.name (nameType .name b) es t)) b x := by
  have key : ∀ (env : HEnv) i out, i + (text es t ++ b).length = env.src.length → wp (consumeIdentLike .name) _ env
    ⟨text es t ++ b, i, out, x⟩ := fun env i out hi => wp_name (d := .name) h (by simp [e]) hi
  rw [← nameModes_name]
  rw [e] at key ⊢
  refine found_case' (by decide) (found_modes fun env i out _ hi => ?_)
  show wp (caseSign _) _ _ _
  unfold caseSign
  rw [wp_bind, wp_rem, wp_bind, wp_get]
  dsimp only
  have hs : startsWith (c!"-" :: u ++ b) b!"-" = true := rfl
  have h1 : startsWithNumber (c!"-" :: u ++ b) = false := by
    unfold startsWithNumber
    rw [hs]
    show startsWithUnsigned (u ++ b) = false
    generalize u ++ b = s at h'
    cases h' with
    | char h =>
      have := start_cased ((start_iff _).2 h)
      simp [cased] at this
      simp [startsWithUnsigned, this]
    | dash h => rfl
    | escape h => obtain ⟨_, _, rfl, _⟩ := h; rfl
    | dashEscape h => rfl
  have h2 : startsWith (c!"-" :: u ++ b) b!"-->" = false := by
    show startsWith (u ++ b) b!"->" = false
    generalize u ++ b = s at h'
    cases h' with
    | char h =>
      have := start_cased ((start_iff _).2 h)
      simp [cased] at this
      simp [startsWith]
      grind
    | dash h =>
      have := start_cased ((start_iff _).2 h)
      simp [cased] at this
      simp [startsWith]
      grind
    | escape h => obtain ⟨_, _, rfl, _⟩ := h; rfl
    | dashEscape h => obtain ⟨_, _, rfl, _⟩ := h; rfl
  have h3 : startsWithIdent ((c!"-" :: u ++ b).drop 1) = true := (beginsName_iff _).2 h'
  rw [h1, h2, h3]
  exact key env i out hi

theorem found_hash {es : List (Bytes × Bytes)} {t : Bytes} {ty : HT} (h : IsName es t b) (h0 : text es t ≠ [])
    (hty : (if x.ctx = .value then .value else x.ctx.type) = ty) (hn : ty ≠ .name) :
    Found step opts x (b!"#" ++ text es t) (parts 0 ((b!"#", ty) :: Spec.Css.name ty es t)) b x := by
  have hc : ((match text es t ++ b with | [] => false | c :: _ => isId c) || startsWithValidEscape (text es t ++ b)) = true := by
    rcases es with _ | ⟨⟨u, w⟩, es⟩
    · obtain ⟨h1, _⟩ := h
      simp only [text] at h0 ⊢
      obtain ⟨c, t, rfl⟩ := List.exists_cons_of_ne_nil h0
      simp [(isId_iff _).2 (h1 c (by simp))]
    · obtain ⟨h1, h2, h3, _⟩ := h
      simp only [text]
      rcases u with _ | ⟨c, u⟩
      · have := valid_of h3 (text es t ++ b)
        simp only [List.nil_append, List.append_assoc] at this ⊢
        simp [this]
      · simp [(isId_iff _).2 (h1 c (by simp))]
  refine found_case' (a := text es t) (by decide) ?_
  have := found_modes (m := caseChar c!"#") (opts := opts) (a := c!"#" :: text es t) (b := b) (x := x) (y := x)
    (ps := (b!"#", ty, .normal) :: nameModes ty es t) fun env i out _ hi => ?_
  · simpa [nameModes_name] using this
  · show wp caseHash _ _ _
    unfold caseHash
    rw [wp_bind, wp_rem, wp_bind, wp_get]
    simp only [List.cons_append, List.drop_succ_cons, List.drop_zero, hty]
    have hcc : ∀ {p : Prop} [Decidable p] {m n : HM Ext Unit}, p → (if p then m else n) = m := fun h => if_pos h
    rw [hcc (by first | exact hc | (simp only [] at hc; exact hc))]
    rw [wp_bind, wp_emit_byte (by simpa using hi)]
    refine wp_mono (wp_name (d := ty) h h0 (by simp at hi ⊢; omega)) ?_
    rintro _ _ rfl
    simp [modesEmit, nameType, hn, Nat.add_assoc]
    omega

theorem found_at {es : List (Bytes × Bytes)} {t : Bytes} (h : IsName es t b) (h0 : text es t ≠ [])
    (h' : BeginsName (text es t ++ b)) :
    Found step opts x (b!"@" ++ text es t) (parts 0 ((b!"@", .name_macro_delim) :: Spec.Css.name .name_macro es t)) b
      ⟨x.braceLevel, .atPrelude⟩ := by
  refine found_case' (a := text es t) (by decide) ?_
  have := found_modes (m := caseChar c!"@") (opts := opts) (a := c!"@" :: text es t) (b := b) (x := x) (y := ⟨x.braceLevel, .atPrelude⟩)
    (ps := (b!"@", .name_macro_delim, .normal) :: nameModes .name_macro es t) fun env i out _ hi => ?_
  · simpa [nameModes_name] using this
  · show wp caseAt _ _ _
    unfold caseAt
    rw [wp_bind]
    have hm : HM.modify (fun e : Ext => { e with ctx := .atPrelude }) env ⟨c!"@" :: text es t ++ b, i, out, x⟩ =
        .ok ((), ⟨c!"@" :: text es t ++ b, i, out, ⟨x.braceLevel, .atPrelude⟩⟩) := rfl
    rw [wp_of_ok hm, wp_bind, wp_rem]
    simp only [List.cons_append, List.drop_succ_cons, List.drop_zero]
    rw [if_pos ((beginsName_iff _).2 h'), wp_bind, wp_emit_byte (by simpa using hi)]
    refine wp_mono (wp_name (d := .name_macro) h h0 (by simp at hi ⊢; omega)) ?_
    rintro _ _ rfl
    simp [modesEmit, nameType, Nat.add_assoc]
    omega

theorem found_bad_at (h' : ¬ BeginsName b) : Found step opts x b!"@" [⟨0, 1, .error⟩] b ⟨x.braceLevel, .atPrelude⟩ := by
  refine found_case' (by decide) (found_one (mode := .normal) fun env i out _ hi => ?_)
  show wp caseAt _ _ _
  unfold caseAt
  rw [wp_bind]
  have hm : HM.modify (fun e : Ext => { e with ctx := .atPrelude }) env ⟨[c!"@"] ++ b, i, out, x⟩ =
      .ok ((), ⟨[c!"@"] ++ b, i, out, ⟨x.braceLevel, .atPrelude⟩⟩) := rfl
  rw [wp_of_ok hm, wp_bind, wp_rem]
  show wp (if startsWithIdent b then _ else _) _ _ _
  rw [not_beginsName h', if_neg (by simp), wp_emit (by rfl) (by simp) hi]
  rfl

/-! ## `!important` -/

theorem same_of_lower {p w z : Bytes} (h : w.map lower = p) : Ascii.sameIgnoringCase p (w ++ z) = true := by
  have key : ∀ c : UInt8, toUpper (lower c) = toUpper c := by apply forall_byte; unfold lower; decide +kernel
  induction w generalizing p with
  | nil => subst h; rfl
  | cons c w ih =>
    subst h
    simp [Ascii.sameIgnoringCase, key]
    exact ih rfl

theorem idChar_of_lower {w : Bytes} (h : w.map lower = b!"important") : (∀ c ∈ w, IdChar c) ∧ (∀ c, w.head? = some c → ¬ Space c) := by
  have key : ∀ c : UInt8, lower c ∈ b!"important" → isId c = true ∧ isHtmlWhitespace c = false := by
    apply forall_byte; unfold lower; decide +kernel
  have h1 : ∀ c ∈ w, lower c ∈ b!"important" := fun c hc => h ▸ List.mem_map_of_mem hc
  refine ⟨fun c hc => (isId_iff c).1 (key c (h1 c hc)).1, fun c hc => ?_⟩
  rw [← space_iff, (key c (h1 c (List.mem_of_head? hc))).2]
  simp

theorem found_important {ws w : Bytes} (h : ∀ c ∈ ws, Space c) (h' : w.map lower = b!"important") :
    Found step opts x (b!"!" ++ ws ++ w) [⟨0, ws.length + 10, .keyword⟩] b x := by
  have hw : w.length = 9 := by simpa using congrArg List.length h'
  obtain ⟨h1, h2⟩ := idChar_of_lower h'
  have e1 : Ascii.length_if (ws ++ (w ++ b)) isHtmlWhitespace = ws.length := by
    refine length_if_eq ⟨fun c hc => ?_, fun c hc => ?_⟩ (by simp)
    · exact (space_iff c).2 (h c (by simpa using hc))
    · rw [List.getElem?_append_right (by simp), Nat.sub_self, ← List.head?_eq_getElem?] at hc
      have : w.head? = some c := by cases w <;> simp at hw hc ⊢; exact hc
      show ¬ isHtmlWhitespace c = true
      rw [space_iff]
      exact h2 c this
  have e2 : matchIdentSequence (w ++ b) = 9 + matchIdentSequence b := by
    have := ident_chars (t := w ++ b) (n := w.length) (by simp) (by simpa using h1)
    rwa [List.drop_left, hw] at this
  refine found_case' (a := ws ++ w) (by decide) (found_one (mode := .normal) fun env i out _ hi => ?_)
  show wp caseBang _ _ _
  unfold caseBang
  rw [wp_bind, wp_rem]
  have d1 : (c!"!" :: (ws ++ w) ++ b).drop 1 = ws ++ (w ++ b) := by simp
  have d2 : (c!"!" :: (ws ++ w) ++ b).drop (1 + ws.length) = w ++ b := by
    rw [← List.drop_drop, d1, List.drop_left]
  dsimp only
  rw [d1, e1, d2, e2]
  have e3 : Ascii.startsWithIgnoreCase ((w ++ b).take (9 + matchIdentSequence b)) b!"important" = true := by
    unfold Ascii.startsWithIgnoreCase
    rw [if_neg (by simp; omega), List.take_append, List.take_of_length_le (by omega)]
    exact same_of_lower h'
  rw [e3, if_pos (by simp)]
  have el : (c!"!" :: (ws ++ w)).length = 1 + ws.length + 9 := by simp; omega
  rw [wp_emit el (by simp) hi, el]
  simp
  omega

theorem found_bang (h : ¬ Important b) : Found step opts x b!"!" [] b x := by
  refine found_case' (by decide) (found_none fun env i out _ hi => ?_)
  show wp caseBang _ _ _
  unfold caseBang
  rw [wp_bind, wp_rem]
  dsimp only
  rw [if_neg, wp_skip (by rfl)]
  · rfl
  · intro hc
    simp only [Bool.and_eq_true] at hc
    obtain ⟨h1, h2⟩ := important_facts (by decide) hc.2
    have hl := length_if_zero_longest b isHtmlWhitespace Space space_iff
    have hle := (length_if_le b isHtmlWhitespace 0 (by omega)).2
    refine h ?_
    change List.length b!"important" ≤ (List.take _ (List.drop (1 + Ascii.length_if b isHtmlWhitespace) (c!"!" :: b))).length at h1
    change (List.take (List.length b!"important") (List.take _ (List.drop (1 + Ascii.length_if b isHtmlWhitespace) (c!"!" :: b)))).map lower = _ at h2
    rw [show List.drop (1 + Ascii.length_if b isHtmlWhitespace) (c!"!" :: b) = List.drop (Ascii.length_if b isHtmlWhitespace) b by
      rw [Nat.add_comm, List.drop_succ_cons]] at h1 h2
    generalize Ascii.length_if b isHtmlWhitespace = n at *
    rw [List.take_take] at h2
    simp at h1
    rw [Nat.min_eq_left (by simp; omega)] at h2
    exact ⟨b.take n, (b.drop n).take 9, (b.drop n).drop 9, by rw [List.append_assoc, List.take_append_drop, List.take_append_drop], hl.1, h2⟩

/-! ## The elements -/

theorem ctxOf_eq {p : Part} : (ctxOf p = .topLevel ↔ p = .selector) ∧ (ctxOf p = .value ↔ p = .value) ∧
    (ctxOf p = .atPrelude ↔ p = .prelude) ∧ (ctxOf p = .block ↔ p = .property) := by
  cases p <;> simp [ctxOf]

theorem element_found {x y : Where} {a : Bytes} {ts : List Token} (h : Element x a ts b y) :
    a ≠ [] ∧ (Found step opts (extOf x) a ts b (extOf y) ∨ b ≠ [] ∧ Skipped step opts (extOf x) a ts b (extOf y)) := by
  cases h with
  | @comment t _ h =>
    refine ⟨by simp, ?_⟩
    by_cases hb : b = []
    · subst hb
      left
      rw [← partsEmit_token]
      refine last_comment (by simp) fun env i out hi => ?_
      have := comment_at (x := extOf x) h (env := env) (i := i) (out := out) (by simpa using hi)
      rw [partsEmit_moved, Nat.add_zero]
      simpa using this
    · exact .inr ⟨hb, skip_comment h⟩
  | @openComment t h =>
    refine ⟨by simp, .inl ?_⟩
    rw [← partsEmit_token]
    refine last_comment (by simp) fun env i out hi => ?_
    rw [partsEmit_moved, Nat.add_zero]
    exact open_comment_at h hi
  | @space _ _ h h' =>
    refine ⟨h, .inl ?_⟩
    obtain ⟨c, w, rfl⟩ := List.exists_cons_of_ne_nil h
    have hc : Space c := h'.1 c (by simp)
    have : ∀ c : UInt8, isHtmlWhitespace c = true → c ≠ c!"/" ∧ (c ∈ b!" \t\r\n" || c = 0x0C) = true := by
      apply forall_byte; decide +kernel
    have := this c ((space_iff c).2 hc)
    refine found_case' this.1 (found_none fun env i out _ hi => ?_)
    unfold caseChar
    rw [if_pos this.2, wp_bind, wp_rem]
    dsimp only
    rw [length_if_eq (p := isHtmlWhitespace) (n := (c :: w).length) (by simpa only [space_iff] using h') (by simp), wp_skip rfl]
  | @string q es t _ hq h =>
    refine ⟨by simp, .inl ?_⟩
    have hc : q ≠ c!"/" ∧ caseChar q = consumeString q := by
      simp at hq
      rcases hq with rfl | rfl <;> exact ⟨by decide, rfl⟩
    refine found_case' (a := text es (t ++ [q])) hc.1 (found_parts fun env i out _ hi => ?_)
    rw [hc.2]
    unfold consumeString
    rw [wp_bind, wp_rem]
    rw [show q :: text es (t ++ [q]) ++ b = [q] ++ (text es t ++ ([q] ++ b)) by simp [text_append]] at hi ⊢
    refine wp_mono (string_loop (o := [q]) hq h (.inl rfl) hi (by simp; omega)) ?_
    rintro _ _ rfl
    simp [text_append]
  | @openString q es t _ hq h h' =>
    refine ⟨by simp, .inl ?_⟩
    have hc : q ≠ c!"/" ∧ caseChar q = consumeString q := by
      simp at hq
      rcases hq with rfl | rfl <;> exact ⟨by decide, rfl⟩
    refine found_case' (a := text es t) hc.1 (found_parts fun env i out _ hi => ?_)
    rw [hc.2]
    unfold consumeString
    rw [wp_bind, wp_rem]
    rw [show q :: text es t ++ b = [q] ++ (text es t ++ ([] ++ b)) by simp] at hi ⊢
    refine wp_mono (string_loop (o := [q]) (l := []) hq h (.inr ⟨rfl, h'⟩) hi (by simp; omega)) ?_
    rintro _ _ rfl
    simp
  | mark h =>
    simp [marks] at h
    rcases h with ⟨rfl, rfl⟩ | ⟨rfl, rfl⟩ | ⟨rfl, rfl⟩ | ⟨rfl, rfl⟩ | ⟨rfl, rfl⟩ | ⟨rfl, rfl⟩ | ⟨rfl, rfl⟩
    · exact ⟨by simp, .inl (found_case' (by decide) (found_emit (mode := .normal) rfl))⟩
    · exact ⟨by simp, .inl (found_case' (by decide) (found_emit (mode := .normal) rfl))⟩
    · exact ⟨by simp, .inl (found_case' (by decide) (found_emit (mode := .normal) rfl))⟩
    · exact ⟨by simp, .inl (found_case' (by decide) (found_emit (mode := .normal) rfl))⟩
    · exact ⟨by simp, .inl (found_case' (by decide) (found_emit (mode := .normal) rfl))⟩
    · refine ⟨by simp, .inl (found_case' (by decide) (found_one (mode := .normal) fun env i out _ hi => ?_))⟩
      show wp (HM.emitAdv 4 .comment_delim) _ _ _
      rw [wp_emit (by rfl) (by simp) hi]
      rfl
    · refine ⟨by simp, .inl (found_case' (by decide) (found_one (mode := .normal) fun env i out _ hi => ?_))⟩
      show wp (HM.emitAdv 3 .comment_delim) _ _ _
      rw [wp_emit (by rfl) (by simp) hi]
      rfl
  | hash h h' =>
    refine ⟨by simp, .inl (found_hash h h' ?_ ?_)⟩
    · show (if ctxOf x.part = .value then _ else (ctxOf x.part).type) = _
      simp only [ctxOf_eq, ctxOf_type]
    · cases x.part <;> simp [Part.type]
  | @number w _ h h' h'' =>
    refine ⟨number_ne h.1, .inl ?_⟩
    have := found_number (opts := opts) (x := extOf x) (w := a) (a := []) (ps := []) h fun env i out hi => ?_
    · simpa [parts, opt, number_ne h.1] using this
    · rw [wp_bind, wp_rem]
      have e : startsWith b b!"%" = false := startsWith_one_false (by rwa [List.head?_eq_getElem?] at h'')
      show wp (if startsWithIdent b then _ else if startsWith b b!"%" then _ else _) _ _ _
      rw [not_beginsName h', e]
      refine (wp_pure _).2 ?_
      simp [modesEmit]
  | @percentage w _ h =>
    refine ⟨by simp, .inl ?_⟩
    refine found_number (ps := [(b!"%", .number_decor, .normal)]) h fun env i out hi => ?_
    rw [wp_bind, wp_rem]
    have e : startsWithIdent (b!"%" ++ b) = false := by
      show (isIdStart c!"%" || startsWithValidEscape (c!"%" :: b)) = false
      rw [valid_cons (by decide)]
      rfl
    dsimp only
    rw [e]
    show wp (HM.emitAdv 1 _) _ _ _
    rw [wp_emit (by rfl) (by simp) hi]
    simp [modesEmit]
  | @dimension w es t _ h h' h'' h0 =>
    refine ⟨by simp [h0], .inl ?_⟩
    rw [← nameModes_name]
    refine found_number (ps := nameModes .number_decor es t) h fun env i out hi => ?_
    rw [wp_bind, wp_rem]
    dsimp only
    rw [(beginsName_iff _).2 h'']
    exact wp_name (d := .number_decor) h' h0 hi
  | name h h' h'' h0 =>
    refine ⟨h0, .inl ?_⟩
    have := found_name (opts := opts) (x := extOf x) h h0 h' h''
    rwa [show (extOf x).ctx.type = x.part.type from ctxOf_type _] at this
  | dashName h e h' => exact ⟨by simp [e], .inl (found_dash h e h')⟩
  | atRule h h' h0 => exact ⟨by simp, .inl (found_at h h0 h')⟩
  | badAt h => exact ⟨by simp, .inl (found_bad_at h)⟩
  | @sign c _ h h' h'' =>
    refine ⟨by simp, .inl ?_⟩
    have hc : c ≠ c!"/" ∧ caseChar c = caseSign c := by
      simp at h
      rcases h with rfl | rfl <;> exact ⟨by decide, rfl⟩
    refine found_case' hc.1 (found_one (mode := .normal) fun env i out _ hi => ?_)
    rw [hc.2]
    unfold caseSign
    rw [wp_bind, wp_rem, wp_bind, wp_get]
    have e : (if (extOf x).ctx = .value || (extOf x).ctx = .atPrelude then HT.symbol_op else .error) =
        if x.part = .value ∨ x.part = .prelude then .symbol_op else .error := by
      show (if decide (ctxOf x.part = .value) || decide (ctxOf x.part = .atPrelude) then _ else _) = _
      simp [ctxOf_eq]
    dsimp only
    rw [e]
    show wp (if startsWithNumber (c :: b) then _ else _) _ _ _
    rw [not_beginsNumber h']
    have fin : wp (HM.emitAdv 1 (if x.part = .value ∨ x.part = .prelude then .symbol_op else .error)) (fun _ s => s = ⟨b, i + [c].length,
        out ++ [⟨i, 1, if x.part = .value ∨ x.part = .prelude then .symbol_op else .error, .normal⟩], extOf x⟩) env
        ⟨[c] ++ b, i, out, extOf x⟩ := by
      rw [wp_emit (by rfl) (by simp) hi]
      rfl
    by_cases hd : c = c!"-"
    · obtain ⟨h1, h2⟩ := h'' hd
      subst hd
      have e1 : startsWith (c!"-" :: b) b!"-->" = false := not_startsWith (p := b!"->") h2
      show wp (if startsWith (c!"-" :: b) b!"-->" then _ else if startsWithIdent b then _ else _) _ _ _
      rw [e1, not_beginsName h1]
      exact fin
    · simp only [hd]
      exact fin
  | dot h h' =>
    refine ⟨by simp, .inl (found_case' (by decide) (found_one (mode := .forced) fun env i out _ hi => ?_))⟩
    show wp caseDot _ _ _
    unfold caseDot
    rw [wp_bind, wp_rem, wp_bind, wp_get]
    show wp (if startsWithNumber (c!"." :: b) then _ else if ctxOf x.part = .topLevel then _ else _) _ _ _
    rw [not_beginsNumber h, h', if_neg (by simp), if_pos (by rfl), wp_emit (by rfl) (by simp) hi]
    rfl
  | colon =>
    refine ⟨by simp, .inl (found_case' (by decide) ?_)⟩
    obtain ⟨l, p⟩ := x
    show Found caseColon _ _ _ _ _ _
    cases p with
    | selector =>
      refine found_one (mode := .forced) fun env i out _ hi => ?_
      unfold caseColon
      rw [wp_bind, wp_get]
      show wp (HM.emitAdv 1 .markup_tag .forced) _ _ _
      rw [wp_emit (by rfl) (by simp) hi]
      rfl
    | prelude =>
      refine found_one (mode := .normal) fun env i out _ hi => ?_
      unfold caseColon
      rw [wp_bind, wp_get]
      show wp (HM.emitAdv 1 .symbol_punc) _ _ _
      rw [wp_emit (by rfl) (by simp) hi]
      rfl
    | property =>
      refine found_one (mode := .normal) fun env i out _ hi => ?_
      unfold caseColon
      rw [wp_bind, wp_get]
      show wp (do HM.set (⟨l, .value⟩ : Ext); HM.emitAdv 1 .symbol_punc) _ _ _
      rw [wp_bind, wp_put, wp_emit (by rfl) (by simp) hi]
      rfl
    | value =>
      refine found_one (mode := .normal) fun env i out _ hi => ?_
      unfold caseColon
      rw [wp_bind, wp_get]
      show wp (HM.emitAdv 1 .symbol_punc) _ _ _
      rw [wp_emit (by rfl) (by simp) hi]
      rfl
  | semicolon =>
    refine ⟨by simp, .inl (found_case' (by decide) (found_one (mode := .normal) fun env i out _ hi => ?_))⟩
    show wp caseSemicolon _ _ _
    unfold caseSemicolon
    have hm : HM.modify (fun e : Ext => { e with ctx := afterSemicolon e.ctx }) env ⟨[c!";"] ++ b, i, out, extOf x⟩ =
        .ok ((), ⟨[c!";"] ++ b, i, out, extOf ⟨x.level, x.part.next⟩⟩) := by
      obtain ⟨l, p⟩ := x
      cases p <;> rfl
    rw [wp_bind, wp_of_ok hm, wp_emit (by rfl) (by simp) hi]
    rfl
  | less h =>
    refine ⟨by simp, .inl (found_case' (by decide) (found_one (mode := .normal) fun env i out _ hi => ?_))⟩
    show wp caseLess _ _ _
    unfold caseLess
    rw [wp_bind, wp_rem]
    have e1 : startsWith (c!"<" :: b) b!"<!--" = false := not_startsWith (p := b!"!--") h
    show wp (if startsWith (c!"<" :: b) b!"<!--" then _ else _) _ _ _
    rw [e1, if_neg (by simp), wp_emit (by rfl) (by simp) hi]
    rfl
  | @combinator c _ h =>
    refine ⟨by simp, .inl ?_⟩
    have hc : c ≠ c!"/" ∧ caseChar c = caseCombinator := by
      simp at h
      rcases h with rfl | rfl | rfl <;> exact ⟨by decide, rfl⟩
    refine found_case' hc.1 ?_
    rw [hc.2]
    by_cases hp : x.part = .selector
    · refine found_one (mode := .forced) fun env i out _ hi => ?_
      unfold caseCombinator
      rw [wp_bind, wp_get]
      show wp (if ctxOf x.part = .topLevel then _ else _) _ _ _
      rw [if_pos (ctxOf_eq.1.2 hp), if_pos hp, wp_emit (by rfl) (by simp) hi]
      rfl
    · refine found_one (mode := .normal) fun env i out _ hi => ?_
      unfold caseCombinator
      rw [wp_bind, wp_get]
      show wp (if ctxOf x.part = .topLevel then _ else _) _ _ _
      rw [if_neg (fun h => hp (ctxOf_eq.1.1 h)), if_neg hp, wp_emit (by rfl) (by simp) hi]
      rfl
  | openBrace =>
    refine ⟨by simp, .inl (found_case' (by decide) (found_one (mode := .normal) fun env i out _ hi => ?_))⟩
    show wp caseOpen _ _ _
    unfold caseOpen
    have hm : HM.modify (fun e : Ext => { braceLevel := e.braceLevel + 1, ctx := .block }) env ⟨[c!"{"] ++ b, i, out, extOf x⟩ =
        .ok ((), ⟨[c!"{"] ++ b, i, out, extOf ⟨x.level + 1, .property⟩⟩) := rfl
    rw [wp_bind, wp_of_ok hm, wp_emit (by rfl) (by simp) hi]
    rfl
  | closeBrace =>
    refine ⟨by simp, .inl (found_case' (by decide) (found_one (mode := .normal) fun env i out _ hi => ?_))⟩
    show wp caseClose _ _ _
    unfold caseClose
    have hm : HM.modify afterClose env ⟨[c!"}"] ++ b, i, out, extOf x⟩ =
        .ok ((), ⟨[c!"}"] ++ b, i, out, extOf x.close⟩) := by
      obtain ⟨l, p⟩ := x
      rcases l with _ | _ | l <;> rfl
    rw [wp_bind, wp_of_ok hm, wp_emit (by rfl) (by simp) hi]
    rfl
  | important h h' => exact ⟨by simp, .inl (found_important h h')⟩
  | backslash h =>
    refine ⟨by simp, .inl (found_case' (by decide) (found_one (mode := .normal) fun env i out _ hi => ?_))⟩
    show wp caseBackslash _ _ _
    unfold caseBackslash
    rw [wp_bind, wp_rem, wp_bind, wp_get]
    show wp (if startsWithValidEscape (c!"\\" :: b) then _ else _) _ _ _
    rw [not_valid h, if_neg (by simp), wp_emit (by rfl) (by simp) hi]
    rfl
  | @none c _ h h' d s n comment hash dot bang =>
    refine ⟨by simp, .inl ?_⟩
    by_cases h1 : c = c!"#"
    · subst h1
      refine found_case' (by decide) (found_none fun env i out _ hi => ?_)
      show wp caseHash _ _ _
      unfold caseHash
      rw [wp_bind, wp_rem, wp_bind, wp_get]
      obtain ⟨h1, h2⟩ := hash rfl
      have e := not_valid h1
      have hs : wp (HM.advance 1) (fun _ s => s = ⟨b, i + [c!"#"].length, out, extOf x⟩) env ⟨[c!"#"] ++ b, i, out, extOf x⟩ := by
        rw [wp_skip (by rfl)]
        rfl
      cases b with
      | nil => exact hs
      | cons d b =>
        have : isId d = false := by rw [← Bool.not_eq_true, isId_iff]; exact h2 d rfl
        show wp (if (isId d || startsWithValidEscape (d :: b)) = true then _ else HM.advance 1) _ _ _
        rw [this, e]
        exact hs
    by_cases h2 : c = c!"."
    · subst h2
      refine found_case' (by decide) (found_none fun env i out _ hi => ?_)
      obtain ⟨h1, h2⟩ := dot rfl
      show wp caseDot _ _ _
      unfold caseDot
      rw [wp_bind, wp_rem, wp_bind, wp_get]
      show wp (if startsWithNumber (c!"." :: b) then _ else if ctxOf x.part = .topLevel then _ else _) _ _ _
      rw [not_beginsNumber h1, if_neg (by simp), if_neg (fun h => h2 (ctxOf_eq.1.1 h)), wp_skip (by rfl)]
      rfl
    by_cases h3 : c = c!"!"
    · subst h3
      exact found_bang (bang rfl)
    have key : ∀ c : UInt8, isHtmlWhitespace c = false ∧ c ∉ b!"_\"'()+-,:;<>~*@[]\\{}#.!" → c ∉ cased := by
      apply forall_byte; decide +kernel
    have hc : c ∉ cased := by
      refine key c ⟨by rw [← Bool.not_eq_true, space_iff]; exact s, ?_⟩
      simp only [List.mem_cons, List.not_mem_nil, or_false, not_or] at n ⊢
      simp [n, h1, h2, h3]
    have hi : isIdStart c = false := by
      rw [← Bool.not_eq_true, start_iff]
      simp only [List.mem_cons, not_or] at n
      rintro (h | h)
      · exact h' h
      · exact n.1 h
    have hd : isDigit c = false := by rw [← Bool.not_eq_true, isDigit_iff]; exact d
    refine found_case (not_startsWith comment) (found_none fun env i out _ _ => ?_)
    rw [case_default hc hd, caseDefault, wp_bind, wp_get, hi, if_neg (by simp), sequenceLength_ascii h, wp_skip (by rfl)]
    rfl
  | @other c _ h h' =>
    have he := enc_utf8 h
    have hb := utf8_bytes h
    generalize utf8 c = p at he hb
    obtain ⟨d, p, rfl⟩ := List.exists_cons_of_ne_nil (enc_ne_nil he)
    have hd : ¬ d.toNat < 0x80 := fun hl => by have := hb d (by simp) hl; omega
    have key : ∀ c : UInt8, ¬ c.toNat < 0x80 → c ∉ cased ∧ isDigit c = false ∧ c ≠ c!"/" ∧ isIdStart c = false := by
      apply forall_byte; decide +kernel
    obtain ⟨h1, h2, h3, h4⟩ := key d hd
    refine ⟨by simp, .inl (found_case' h3 (found_none fun env i out _ hi => ?_))⟩
    rw [case_default h1 h2, caseDefault, wp_bind, wp_get, h4, if_neg (by simp), enc_seqLen he, wp_skip (by simp)]
    simp

/-- C58 for CSS: a style sheet gets exactly the tokens of its lexical elements. -/
theorem C58_css : ExactIn highlight (fun _ => Element) {} :=
  exactIn_of_skipped (R := extOf) (u := {}) (fun _ => rfl) fun _ _ _ _ _ _ h => element_found h

/-! ## Every text is a sequence of elements -/

theorem utf8_after {a : Bytes} (ha : ∀ c ∈ a, c.toNat < 0x80) (h : IsUtf8 (a ++ b)) : IsUtf8 b := by
  induction a with
  | nil => exact h
  | cons c a ih => exact ih (fun d hd => ha d (by simp [hd])) ((isUtf8_cons_iff (.one c (ha c (by simp)))).1 h)

theorem utf8_before {a : Bytes} {c : UInt8} (hc : c.toNat < 0x80) (hb : b.head? = some c) (h : IsUtf8 (a ++ b)) : IsUtf8 b := by
  have := (isUtf8_boundary h (k := a.length) (b := c) (by
    rw [List.getElem?_append_right (Nat.le_refl _), Nat.sub_self, ← List.head?_eq_getElem?, hb]) (.inl hc)).2
  rwa [List.drop_left] at this

theorem hex_split (n : Nat) (s : Bytes) : ∃ ds b, s = ds ++ b ∧ ds.length ≤ n ∧ (∀ c ∈ ds, HexDigit c) ∧
    (ds.length = n ∨ ∀ c, b.head? = some c → ¬ HexDigit c) := by
  induction n generalizing s with
  | zero => exact ⟨[], s, rfl, by simp, by simp, .inl rfl⟩
  | succ n ih =>
    rcases s with _ | ⟨c, s⟩
    · exact ⟨[], [], rfl, by simp, by simp, .inr (by simp)⟩
    · by_cases hc : HexDigit c
      · obtain ⟨ds, b, rfl, h1, h2, h3⟩ := ih s
        refine ⟨c :: ds, b, rfl, by simpa using h1, ?_, by simpa using h3⟩
        intro d hd
        rcases List.mem_cons.1 hd with rfl | hd
        · exact hc
        · exact h2 d hd
      · exact ⟨[], c :: s, rfl, by simp, by simp, .inr (by rintro _ h; cases h; exact hc)⟩

theorem escape_exists {r : Bytes} (h : IsUtf8 r) : ∃ w b, r = w ++ b ∧ IsEscape (c!"\\" :: w) b ∧ IsUtf8 b ∧ (r ≠ [] → w ≠ []) := by
  rcases r with _ | ⟨d, r⟩
  · exact ⟨[], [], rfl, .atEnd, h, by simp⟩
  · by_cases hd : HexDigit d
    · obtain ⟨ds, b, e, h1, h2, h3⟩ := hex_split 6 (d :: r)
      have hne : 1 ≤ ds.length := by
        rcases ds with _ | ⟨d', ds⟩
        · rcases h3 with h3 | h3
          · cases h3
          · exact absurd hd (h3 d (by rw [← show d :: r = b from e]; rfl))
        · simp
      rw [e] at h ⊢
      have hb := utf8_after (fun c hc => hex_ascii (h2 c hc)) h
      by_cases hs : ∃ c, b.head? = some c ∧ Space c
      · obtain ⟨c, hc, hs⟩ := hs
        rcases b with _ | ⟨c', b⟩
        · cases hc
        · cases hc
          exact ⟨ds ++ [c], b, by simp, .hexSpace hne h1 h2 hs, utf8_after (a := [c]) (by simpa using space_ascii hs) hb, by simp⟩
      · exact ⟨ds, b, rfl, .hex hne h1 h2 h3 (fun c hc hs' => hs ⟨c, hc, hs'⟩), hb, fun _ h => by simp [h] at hne⟩
    · obtain ⟨c, p, b, he, e, _⟩ := isUtf8_decode h (by simp)
      have := he.scalar
      rw [e] at h ⊢
      refine ⟨p, b, rfl, ?_, (isUtf8_cons_iff he).1 h, fun _ => enc_ne_nil he⟩
      rw [← this.2]
      refine .char this.1 fun d' hd' => ?_
      rw [this.2] at hd'
      rcases p with _ | ⟨d'', p⟩
      · cases hd'
      · cases hd'
        cases e
        exact hd

theorem name_exists {s : Bytes} (h : IsUtf8 s) : ∃ es t b, s = text es t ++ b ∧ IsName es t b ∧ IsUtf8 b := by
  induction hn : s.length using Nat.strongRecOn generalizing s with
  | ind n ih =>
    obtain ⟨t, b, rfl, hl⟩ := longest_split IdChar s
    have h1 : ∀ c ∈ t, IdChar c := by simpa using hl.1
    have h2 : ∀ c, b.head? = some c → ¬ IdChar c := by
      intro c hc
      exact hl.2 c (by rw [List.getElem?_append_right (Nat.le_refl _), Nat.sub_self, ← List.head?_eq_getElem?, hc])
    have hb := utf8_after (fun c hc => idChar_ascii (h1 c hc)) h
    by_cases he : BeginsEscape b
    · obtain ⟨c, r, rfl, hc⟩ := he
      obtain ⟨w, b, e, hw, hb', hne⟩ := escape_exists (utf8_after (a := [c!"\\"]) (by simp) hb)
      obtain ⟨es, t', b, rfl, hn', hb''⟩ := ih b.length (by
        have := congrArg List.length e
        simp at this hn
        omega) hb' rfl
      refine ⟨(t, c!"\\" :: w) :: es, t', b, ?_, ⟨h1, hw, ?_, hn'⟩, hb''⟩
      · rw [e]
        simp [text]
      · obtain ⟨c', w, rfl⟩ := List.exists_cons_of_ne_nil (hne (by simp))
        cases e
        exact ⟨c, w, rfl, hc⟩
    · exact ⟨[], t, b, rfl, ⟨h1, h2, he⟩, hb⟩

theorem content_exists (q : UInt8) (hq : q.toNat < 0x80) {s : Bytes} (h : IsUtf8 s) : ∃ es t b, s = text es t ++ b ∧
    IsContent q es t b ∧ IsUtf8 b ∧ (∀ c, b.head? = some c → c = q ∨ Newline c) := by
  induction hn : s.length using Nat.strongRecOn generalizing s with
  | ind n ih =>
    obtain ⟨t, b, rfl, hl⟩ := longest_split (fun c => c ≠ q ∧ ¬ Newline c ∧ c ≠ c!"\\") s
    have h1 : ∀ c ∈ t, c ≠ q ∧ ¬ Newline c ∧ c ≠ c!"\\" := by simpa using hl.1
    have h2 : ∀ c, b.head? = some c → c = q ∨ Newline c ∨ c = c!"\\" := by
      intro c hc
      have := hl.2 c (by rw [List.getElem?_append_right (Nat.le_refl _), Nat.sub_self, ← List.head?_eq_getElem?, hc])
      grind
    rcases b with _ | ⟨c, r⟩
    · exact ⟨[], t, [], by simp [text], h1, isUtf8_nil, by simp⟩
    have hc := h2 c rfl
    have ha : c.toNat < 0x80 := by
      rcases hc with rfl | hc | rfl
      · exact hq
      · have : ∀ c : UInt8, isNewline c = true → c.toNat < 0x80 := by apply forall_byte; decide +kernel
        exact this c ((newline_iff c).2 hc)
      · decide
    have hb := utf8_before ha rfl h
    by_cases he : c ≠ q ∧ ¬ Newline c
    · have : c = c!"\\" := by grind
      subst this
      obtain ⟨w, b, rfl, hw, hb', -⟩ := escape_exists (utf8_after (a := [c!"\\"]) (by simp) hb)
      obtain ⟨es, t', b, rfl, hn', hb'', hq'⟩ := ih b.length (by simp at hn; omega) hb' rfl
      exact ⟨(t, c!"\\" :: w) :: es, t', b, by simp [text], ⟨h1, hw, hn'⟩, hb'', hq'⟩
    · exact ⟨[], t, c :: r, rfl, h1, hb, by rintro _ h; cases h; grind⟩

theorem number_exists {s : Bytes} (h : BeginsNumber s) : ∃ w b, s = w ++ b ∧ IsNumber w b := by
  have h' := (beginsNumber_iff s).2 h
  obtain ⟨h1, h2, h3, _⟩ := number_facts h'
  refine ⟨s.take (matchNumber s), s.drop (matchNumber s), by simp, h3, ?_⟩
  intro m hm hm' hn
  rw [List.take_append_drop] at hm' hn
  have := (number_le hn (s.drop m)).2
  rw [List.take_append_drop] at this
  simp at this hm
  omega

theorem name_ne {es : List (Bytes × Bytes)} {t : Bytes} (h : IsName es t b) (h' : BeginsName (text es t ++ b)) : text es t ≠ [] := by
  intro e
  have := ident_at h
  rw [e] at this
  rw [e] at h'
  exact startsWithIdent_ne ((beginsName_iff _).2 h') this

theorem element_exists (x : Where) (src : Bytes) (hu : IsUtf8 src) (hne : src ≠ []) :
    ∃ a ts b y, src = a ++ b ∧ a ≠ [] ∧ IsUtf8 b ∧ Element x a ts b y := by
  obtain ⟨c, r, rfl⟩ := List.exists_cons_of_ne_nil hne
  have one : ∀ {ts y}, c.toNat < 0x80 → Element x [c] ts r y → ∃ a ts b y, c :: r = a ++ b ∧ a ≠ [] ∧ IsUtf8 b ∧ Element x a ts b y :=
    fun hc h => ⟨[c], _, r, _, rfl, by simp, utf8_after (a := [c]) (by simpa using hc) hu, h⟩
  by_cases ha : c.toNat < 0x80
  case neg =>
    obtain ⟨d, p, b, he, e, _⟩ := isUtf8_decode hu (by simp)
    have hs := he.scalar
    rw [e] at hu ⊢
    refine ⟨p, [], b, x, rfl, enc_ne_nil he, (isUtf8_cons_iff he).1 hu, ?_⟩
    rw [← hs.2]
    refine .other hs.1 (Nat.le_of_not_lt fun hd => ha ?_)
    have hp : p = [UInt8.ofNat d] := by
      rw [← hs.2]
      simp [utf8, hd]
    rw [hp] at e
    obtain ⟨rfl, -⟩ := List.cons.inj e
    simp
    omega
  have hr : IsUtf8 r := utf8_after (a := [c]) (by simpa using ha) hu
  by_cases hcom : b!"/*" <+: c :: r
  · obtain ⟨t, e⟩ := hcom
    rw [← e] at hu ⊢
    have ht := utf8_after (a := b!"/*") (by simp) hu
    cases hf : findSub b!"*/" t with
    | none =>
      have key := findSub_spec b!"*/" t
      rw [hf] at key
      exact ⟨_, _, [], _, (List.append_nil _).symm, by simp, isUtf8_nil, .openComment key⟩
    | some k =>
      have h := upTo_of_find hf
      have key := findSub_spec b!"*/" t
      rw [hf] at key
      obtain ⟨u, b, rfl, rfl⟩ := key.1
      refine ⟨b!"/*" ++ u ++ b!"*/", _, b, _, by simp, by simp, ?_, .comment h⟩
      have : IsUtf8 (b!"*/" ++ b) := utf8_before (a := u) (c := c!"*") (by decide) rfl (by simpa using ht)
      exact utf8_after (a := b!"*/") (by simp) this
  by_cases hs : Space c
  · obtain ⟨t, b, e, hl⟩ := longest_split Space (c :: r)
    rw [e] at hu ⊢
    have h1 : ∀ c ∈ t, Space c := by simpa using hl.1
    have hne := Spec.Longest.ne_nil hl e hs
    exact ⟨t, _, b, _, rfl, hne, utf8_after (fun c hc => space_ascii (h1 c hc)) hu, .space hne hl⟩
  by_cases hq : c ∈ b!"'\""
  · obtain ⟨es, t, b, rfl, h1, h2, h3⟩ := content_exists c ha hr
    by_cases hb : b.head? = some c
    · rcases b with _ | ⟨d, b⟩
      · cases hb
      · cases hb
        refine ⟨[c] ++ text es (t ++ [c]), _, b, _, by simp [text_append], by simp, utf8_after (a := [c]) (by simpa using ha) h2,
          .string hq h1⟩
    · exact ⟨[c] ++ text es t, _, b, _, by simp, by simp, h2, .openString hq h1 fun d hd => by
        rcases h3 d hd with rfl | h
        · exact absurd hd hb
        · exact h⟩
  by_cases hnum : BeginsNumber (c :: r)
  · obtain ⟨w, b, e, h1⟩ := number_exists hnum
    rw [e] at hu ⊢
    have hb := utf8_after (number_ascii h1.1) hu
    have hw := number_ne h1.1
    by_cases hn : BeginsName b
    · obtain ⟨es, t, b, rfl, h2, h3⟩ := name_exists hb
      exact ⟨w ++ text es t, _, b, _, by simp, by simp [hw], h3, .dimension h1 h2 hn (name_ne h2 hn)⟩
    · by_cases hp : b.head? = some c!"%"
      · rcases b with _ | ⟨d, b⟩
        · cases hp
        · cases hp
          exact ⟨w ++ b!"%", _, b, _, by simp, by simp, utf8_after (a := b!"%") (by simp) hb, .percentage h1⟩
      · exact ⟨w, _, b, _, rfl, hw, hb, .number h1 hn hp⟩
  by_cases hdash : c = c!"-"
  · subst hdash
    by_cases hn : BeginsName r
    · obtain ⟨es, t, b, e, h2, h3⟩ := name_exists hu
      have : text es t ≠ [] := by
        intro e'
        have h := ident_at h2
        rw [← e, ident_char (by decide), e'] at h
        simp at h
      obtain ⟨d, u, e'⟩ := List.exists_cons_of_ne_nil this
      have e2 := e
      rw [e'] at e2
      obtain ⟨rfl, rfl⟩ := List.cons.inj (show _ = d :: (u ++ b) from e2)
      exact ⟨text es t, _, b, _, e, this, h3, .dashName h2 e' hn⟩
    · by_cases hd : b!"->" <+: r
      · obtain ⟨t, rfl⟩ := hd
        exact ⟨b!"-->", _, t, _, rfl, by simp, utf8_after (a := b!"->") (by simp) hr, .mark (ty := .comment_delim) (by simp [marks])⟩
      · exact one (by decide) (.sign (by simp) hnum fun _ => ⟨hn, hd⟩)
  by_cases hst : IdStart c ∨ BeginsEscape (c :: r)
  · obtain ⟨es, t, b, e, h2, h3⟩ := name_exists hu
    have hn : BeginsName (c :: r) := hst.elim .char .escape
    have h0 : text es t ≠ [] := name_ne h2 (by rwa [← e])
    refine ⟨text es t, _, b, _, e, h0, h3, .name h2 (by rwa [← e]) ?_ h0⟩
    obtain ⟨d, u, e'⟩ := List.exists_cons_of_ne_nil h0
    rw [e'] at e ⊢
    obtain ⟨rfl, -⟩ := List.cons.inj (show _ = d :: (u ++ b) from e)
    simpa using hdash
  rw [not_or] at hst
  by_cases hh : c = c!"#"
  · subst hh
    obtain ⟨es, t, b, rfl, h2, h3⟩ := name_exists hr
    by_cases h0 : text es t = []
    · refine one (by decide) (.none (x := x) (by decide) (by unfold Letter; decide) (by unfold DecDigit; decide) hs (by decide) hcom
        (fun _ => ?_) (by simp) (by simp))
      rcases es with _ | ⟨⟨u, w⟩, es⟩
      · obtain ⟨h4, h5, h6⟩ := h2
        simp only [text] at h0
        subst h0
        exact ⟨h6, h5⟩
      · obtain ⟨_, h4, _⟩ := h2
        obtain ⟨w', rfl⟩ := escape_first h4
        simp [text] at h0
    · exact ⟨b!"#" ++ text es t, _, b, _, by simp, by simp, h3, .hash h2 h0⟩
  by_cases hat : c = c!"@"
  · subst hat
    by_cases hn : BeginsName r
    · obtain ⟨es, t, b, rfl, h2, h3⟩ := name_exists hr
      exact ⟨b!"@" ++ text es t, _, b, _, by simp, by simp, h3, .atRule h2 hn (name_ne h2 hn)⟩
    · exact one (by decide) (.badAt hn)
  by_cases hl : c = c!"<"
  · subst hl
    by_cases hd : b!"!--" <+: r
    · obtain ⟨t, rfl⟩ := hd
      exact ⟨b!"<!--", _, t, _, rfl, by simp, utf8_after (a := b!"!--") (by simp) hr,
        .mark (ty := .comment_delim) (by simp [marks])⟩
    · exact one (by decide) (.less hd)
  by_cases hm : c ∈ b!"()[],"
  · simp at hm
    rcases hm with rfl | rfl | rfl | rfl | rfl
    · exact one (by decide) (.mark (ty := .symbol_parens) (by simp [marks]))
    · exact one (by decide) (.mark (ty := .symbol_parens) (by simp [marks]))
    · exact one (by decide) (.mark (ty := .symbol_square) (by simp [marks]))
    · exact one (by decide) (.mark (ty := .symbol_square) (by simp [marks]))
    · exact one (by decide) (.mark (ty := .symbol_punc) (by simp [marks]))
  by_cases hp : c = c!"+"
  · subst hp
    exact one (by decide) (.sign (by simp) hnum (by simp))
  by_cases hco : c = c!":"
  · subst hco; exact one (by decide) .colon
  by_cases hse : c = c!";"
  · subst hse; exact one (by decide) .semicolon
  by_cases hcb : c ∈ b!">~*"
  · exact one ha (.combinator hcb)
  by_cases hob : c = c!"{"
  · subst hob; exact one (by decide) .openBrace
  by_cases hcl : c = c!"}"
  · subst hcl; exact one (by decide) .closeBrace
  by_cases hbs : c = c!"\\"
  · subst hbs; exact one (by decide) (.backslash hst.2)
  by_cases hdot : c = c!"." ∧ x.part = .selector
  · obtain ⟨rfl, hx⟩ := hdot
    exact one (by decide) (.dot hnum hx)
  by_cases hbang : c = c!"!" ∧ Important r
  · obtain ⟨rfl, ws, w, t, rfl, h1, h2⟩ := hbang
    refine ⟨b!"!" ++ ws ++ w, _, t, _, by simp, by simp, ?_, .important h1 h2⟩
    have h3 := idChar_of_lower h2
    refine utf8_after (a := ws ++ w) (fun c hc => ?_) hr
    rcases List.mem_append.1 hc with hc | hc
    · exact space_ascii (h1 c hc)
    · exact idChar_ascii (h3.1 c hc)
  refine one ha (.none (x := x) ha (fun h => hst.1 (.inl h)) ?_ hs ?_ hcom (fun h => absurd h hh) (fun h => ⟨hnum, fun hx => hdot ⟨h, hx⟩⟩)
    (fun h hi => hbang ⟨h, hi⟩))
  · intro hd
    refine hnum ((beginsNumber_iff _).1 ?_)
    have h1 := (isDigit_iff c).2 hd
    have : c ≠ c!"+" ∧ c ≠ c!"-" := ⟨hp, hdash⟩
    unfold startsWithNumber
    rw [startsWith_one_false (by simpa using hp), startsWith_one_false (by simpa using hdash)]
    simp [startsWithUnsigned, h1]
  · have : c ≠ c!"_" := fun h => hst.1 (.inr h)
    simp at hq hm hcb ⊢
    grind

/-- Every well-formed text is a style sheet in the sense of C58. -/
theorem C58_css_total (src : Bytes) (h : IsUtf8 src) : ∃ ts, ProgramIn Element {} src ts :=
  total_of_where (P := IsUtf8) (fun x src hp he => element_exists x src hp he) src h {}

/-- A rule with an escape in a name and a number with a unit, and a comment. -/
example (debug : Bool) (opts : Opts) : ∃ es, highlight debug opts b!"a{c\\41 :-1px}/*x*/" = .ok (true, es) ∧
    es.map Emit.token = [⟨0, 1, .markup_tag⟩, ⟨1, 1, .symbol_brace⟩, ⟨2, 1, .markup_attr⟩, ⟨3, 4, .string_escape⟩,
      ⟨7, 1, .symbol_punc⟩, ⟨8, 2, .number⟩, ⟨10, 2, .number_decor⟩, ⟨12, 1, .symbol_brace⟩, ⟨13, 2, .comment_delim⟩,
      ⟨15, 1, .comment⟩, ⟨16, 2, .comment_delim⟩] := by
  have ic : ∀ t : Bytes, (∀ c ∈ t, isId c = true) → ∀ c ∈ t, IdChar c := fun t h c hc => (isId_iff c).1 (h c hc)
  have nc : ∀ {c : UInt8} {t : Bytes}, isId c = false → c ≠ c!"\\" →
      (∀ d, (c :: t).head? = some d → ¬ IdChar d) ∧ ¬ BeginsEscape (c :: t) := by
    intro c t h h'
    refine ⟨by rintro _ e; cases e; rw [← isId_iff, h]; simp, ?_⟩
    rw [← valid_iff, valid_cons h']
    simp
  have hp : ProgramIn Element {} [] [] := .nil
  have hp := hp.before b!"/*x*/" (.comment (t := b!"x") (upTo_of_find (by decide +kernel)))
  have hp := hp.before b!"}" (.closeBrace (x := ⟨1, .value⟩))
  have hn : IsNumber b!"-1" b!"px}/*x*/" := by
    obtain ⟨w, b, e, h⟩ := number_exists ((beginsNumber_iff b!"-1px}/*x*/").1 (by decide +kernel))
    have h1 := (number_at h).2
    rw [← e, show matchNumber b!"-1px}/*x*/" = 2 by decide +kernel] at h1
    obtain ⟨rfl, rfl⟩ := List.append_inj (show b!"-1" ++ b!"px}/*x*/" = w ++ b from e) h1
    exact h
  have hp := hp.before b!"-1px" (.dimension (x := ⟨1, .value⟩) (w := b!"-1") (es := []) (t := b!"px") hn
    ⟨ic _ (by decide +kernel), nc (by decide) (by decide)⟩ (.char ((start_iff _).1 (by decide))) (by simp [text]))
  have hp := hp.before b!":" (.colon (x := ⟨1, .property⟩))
  have hp := hp.before b!"c\\41 " (.name (x := ⟨1, .property⟩) (es := [(b!"c", b!"\\41 ")]) (t := [])
    ⟨ic _ (by decide +kernel), .hexSpace (ds := b!"41") (by simp) (by simp) (fun c hc => (hex_iff c).1 (by revert c; decide +kernel))
      ((space_iff _).1 (by decide)), (valid_iff _).1 (by decide), by simp, nc (by decide) (by decide)⟩
    (.char ((start_iff _).1 (by decide))) (by simp [text]) (by simp [text]))
  have hp := hp.before b!"{" (.openBrace (x := {}))
  have hp := hp.before b!"a" (.name (x := {}) (es := []) (t := b!"a") ⟨ic _ (by decide +kernel), nc (by decide) (by decide)⟩
    (.char ((start_iff _).1 (by decide))) (by simp [text]) (by simp [text]))
  exact C58_css.of_program ⟨_, hp, rfl⟩ _

end Ulight.Css
