import Verif.Hl.ProgramStep
import Verif.Props.Lang.Nasm
import Verif.Spec.Elements.Nasm

/-!
# C58 for NASM
-/

namespace Ulight.Nasm

open Spec Spec.Nasm

set_option maxRecDepth 2000

variable {opts : Opts} {x : IdKind} {b : Bytes}

/-- The state of the program for what a word would be. -/
def kindOf : Kind → IdKind
  | .instruction => .instruction
  | .var => .var
  | .label => .label

@[simp] theorem kindOf_type (k : Kind) : (kindOf k).type = k.type := by cases k <;> rfl

theorem space_found {c : UInt8} (h : c ∈ b!" \t") : Found consumeAnything opts x [c] [] b x := by
  refine found_none fun env i out _ _ => ?_
  unfold consumeAnything
  simp at h
  simp [h]
  rw [wp_advance_iff (by simp)]
  simp [HS.adv]

theorem line_found {c : UInt8} (h : c ∈ b!"\r\n") : Found consumeAnything opts x [c] [] b .instruction := by
  refine found_none fun env i out _ _ => ?_
  unfold consumeAnything
  simp at h
  rcases h with rfl | rfl
  all_goals
    simp
    rw [wp_put, wp_advance_iff (by simp)]
    simp [HS.adv]

theorem symbol_found {c : UInt8} {ty : HT} (h : (c, ty) ∈ symbols) :
    Found consumeAnything opts x [c] [⟨0, 1, ty⟩] b x := by
  refine found_one (mode := .normal) fun env i out _ hi => ?_
  unfold consumeAnything
  simp [symbols] at h
  rcases h with ⟨rfl, rfl⟩ | ⟨rfl, rfl⟩ | ⟨rfl, rfl⟩ | ⟨rfl, rfl⟩ | ⟨rfl, rfl⟩ | ⟨rfl, rfl⟩ | ⟨rfl, rfl⟩
  all_goals
    simp [isDigit]
    rw [wp_emitAdv_iff (by simpa using hi) (by simp) (by simp)]
    simp [HS.emitted]

theorem comment_found {t e : Bytes} (h : FirstLine (t ++ e ++ b) t e b) :
    Found consumeAnything opts x (b!";" ++ t ++ e) (parts 0 [(b!";", .comment_delim), (t, .comment)]) b .instruction := by
  refine found_parts fun env i out _ hi => ?_
  unfold consumeAnything consumeComment
  have hm := matchCrlfLine_at h
  rw [List.append_assoc] at hm
  simp [isDigit, startsWith_cons_cons]
  rw [wp_emitAdv_iff (by simpa using hi) (by simp) (by simp)]
  simp [HS.emitted, hm]
  rw [wp_emitNonempty (a := t) rfl (by simp at hi ⊢; omega), wp_skip rfl, wp_put]
  simp [partsEmit, optEmit]
  omega

theorem directive_found {t e : Bytes} (h : FirstLine (t ++ e ++ b) t e b) :
    Found consumeAnything opts x (b!"%" ++ t ++ e) [⟨0, t.length + 1, .name_macro⟩] b .instruction := by
  refine found_one (mode := .normal) fun env i out _ hi => ?_
  unfold consumeAnything consumeMacro
  have hm := matchCrlfLine_at h
  rw [List.append_assoc] at hm
  simp [isDigit, startsWith_cons_cons, hm]
  have e1 : c!"%" :: (t ++ (e ++ b)) = (c!"%" :: t) ++ (e ++ b) := rfl
  rw [e1, wp_emit (a := c!"%" :: t) (by simp) (by simp) (by simp at hi ⊢; omega), wp_skip rfl, wp_put]
  simp
  omega

theorem verbatim_eq {q : UInt8} {t r : Bytes} (h : Longest (fun c => c ≠ 0x0A ∧ c ≠ 0x0D ∧ c ≠ q) (t ++ r) t.length) :
    Ascii.length_if_not (t ++ r) (fun c => c = 0x0A || c = 0x0D || c = q) = t.length :=
  length_if_not_eq (by simp [and_assoc]) h (by simp)

theorem openString_found {q : UInt8} {t : Bytes} (hq : q ∈ b!"'\"")
    (h : Longest (fun c => c ≠ 0x0A ∧ c ≠ 0x0D ∧ c ≠ q) (t ++ b) t.length) (h' : b.head? ≠ some q) :
    Found consumeAnything opts x ([q] ++ t) (parts 0 [([q], .string_delim), (t, .string)]) b x := by
  refine found_parts fun env i out _ hi => ?_
  have e := verbatim_eq h
  have hs : startsWith b [q] = false := by
    cases b with
    | nil => rfl
    | cons c b =>
      simp at h'
      simp [startsWith_cons_cons]
      exact fun h => h' h.symm
  unfold consumeAnything consumeString consumeVerbatim
  simp at hq
  rcases hq with rfl | rfl
  all_goals
    simp [isDigit, startsWith_cons_cons]
    rw [wp_emit_byte (by simp at hi ⊢; omega)]
    simp [e]
    rw [wp_emitNonempty (a := t) rfl (by simp at hi ⊢; omega)]
    simp [hs]
    rw [wp_emitAdvIf_iff (by simp at hi ⊢; omega) (by simp)]
    simp [partsEmit, optEmit]
    omega

theorem string_found {q : UInt8} {t : Bytes} (hq : q ∈ b!"'\"") (h : ∀ c ∈ t, c ≠ 0x0A ∧ c ≠ 0x0D ∧ c ≠ q) :
    Found consumeAnything opts x ([q] ++ t ++ [q]) (parts 0 [([q], .string_delim), (t, .string), ([q], .string_delim)]) b x := by
  refine found_parts fun env i out _ hi => ?_
  have e := verbatim_eq (q := q) (t := t) (r := q :: b) ⟨by simpa using h, by simp⟩
  unfold consumeAnything consumeString consumeVerbatim
  simp at hq
  rcases hq with rfl | rfl
  all_goals
    simp [isDigit, startsWith_cons_cons]
    rw [wp_emit_byte (by simp at hi ⊢; omega)]
    simp [e]
    rw [wp_emitNonempty (a := t) rfl (by simp at hi ⊢; omega)]
    simp [startsWith_cons_cons]
    first | rw [show c!"'" :: b = [c!"'"] ++ b from rfl] | rw [show c!"\"" :: b = [c!"\""] ++ b from rfl]
    rw [wp_emitNonempty (by rfl) (by simp at hi ⊢; omega)]
    simp [partsEmit, optEmit]
    omega

theorem matchEscape_ends {w r : Bytes} (h : escapes.Ends w r) :
    matchEscape (w ++ r) = ⟨w.length, false⟩ ∧ w ≠ [] ∧ w.head? = some c!"\\" := by
  obtain ⟨c, t, e, _⟩ := h.1
  have h0 : (w ++ r)[0]? = some c!"\\" := by simp [e]
  rcases matchEscape_facts h0 with ⟨_, h1, _⟩ | ⟨h1, _⟩
  · simp [e] at h1
  · exact ⟨escape_eq (by decide) h1 h, by simp [e], by simp [e]⟩

theorem string_loop : StringLoop backquoteStep b!"`" (NotFirst b!"\n\r\x0b`\\") (fun w r => escapes.Ends w r) where
  plain := by
    intro k env s Q hk hc hQ
    rw [List.drop_eq_getElem_cons hk, notFirst_cons] at hc
    unfold backquoteStep
    simp at hc
    simp [hk, hc, hQ]
  escape := by
    intro t w r i out ext env Q he hl hQ
    obtain ⟨h1, h2, h3⟩ := matchEscape_ends he
    obtain ⟨c, u, rfl⟩ := List.exists_cons_of_ne_nil h2
    cases h3
    unfold backquoteStep consumeEscape
    simp
    rw [wp_emitAdvIf_iff hl (by simp)]
    simp at h1
    simp [h1]
    rw [wp_emitAdv_iff (by simp at hl ⊢; omega) (by simp) (by simp)]
    simpa [HS.emitted, optEmit] using hQ
  close := by
    intro t r i out ext env Q hl hQ
    unfold backquoteStep
    simp
    rw [wp_emitAdvIf_iff hl (by simp)]
    simp
    rw [wp_emitAdv_iff (by simp at hl ⊢; omega) (by simp) (by simp)]
    simpa [HS.emitted, optEmit] using hQ
  nonempty := fun w r h => (matchEscape_ends h).2.1

theorem backquoted_found {es : List (Bytes × Bytes)} {t : Bytes}
    (h : StringContent (NotFirst b!"\n\r\x0b`\\") (fun w r => escapes.Ends w r) (b!"`" ++ b) es t) :
    Found consumeAnything opts x ((quoted b!"`" es t).flatMap Prod.fst) (parts 0 (quoted b!"`" es t)) b x := by
  refine found_parts fun env i out _ hi => ?_
  have e : (quoted b!"`" es t).flatMap Prod.fst ++ b = c!"`" :: ((content es t).flatMap Prod.fst ++ (b!"`" ++ b)) := by
    simp [quoted]
  rw [e] at hi ⊢
  unfold consumeAnything consumeString
  generalize hT : (content es t).flatMap Prod.fst ++ (b!"`" ++ b) = T at hi ⊢
  simp [isDigit, startsWith_cons_cons]
  rw [wp_emit_byte hi]
  subst hT
  refine wp_string_loop string_loop h ?_ ?_ ?_
  · simp at hi ⊢
    omega
  · simp
    omega
  · simp [quoted, partsEmit, optEmit]
    omega

theorem wp_other {w : Bytes} {c : UInt8} {env : HEnv} {i : Nat} {out : List Emit} {Q : Unit → HS IdKind → Prop}
    (hc : w.head? = some c) (h : c ∉ b!" \t\r\n\"'`()[]{},;%") (hd : isDigit c = false)
    (hw : wp (consumeOther c) Q env ⟨w, i, out, x⟩) : wp consumeAnything Q env ⟨w, i, out, x⟩ := by
  cases w with
  | nil => cases hc
  | cons d r =>
    cases hc
    unfold consumeAnything
    simp at h
    simp [h, hd, hw]

theorem operator_byte : ∀ w ∈ operators, NotFirst b!"%" w →
    ∃ c, w.head? = some c ∧ c ∉ b!" \t\r\n\"'`()[]{},;%" ∧ isDigit c = false := by
  intro w hw h
  have : ∀ w ∈ operators, w.head? ≠ some c!"%" → ∃ c ∈ w.head?, c ∉ b!" \t\r\n\"'`()[]{},;%" ∧ isDigit c = false := by
    decide +kernel
  obtain ⟨c, h1, h2⟩ := this w hw (by
    cases w with
    | nil => simp
    | cons c w => rw [notFirst_cons] at h; simpa using h)
  exact ⟨c, h1, h2⟩

theorem head_append {w : Bytes} {c : UInt8} (h : w.head? = some c) : (w ++ b).head? = some c := by
  cases w with
  | nil => cases h
  | cons d w => exact h

theorem operator_found {w : Bytes} (h : LongestIn operators (w ++ b) w.length) (h' : NotFirst b!"%" w) :
    Found consumeAnything opts x w [⟨0, w.length, .symbol_op⟩] b x := by
  refine found_one (mode := .normal) fun env i out _ hi => ?_
  have hw : w ∈ operators := by simpa [LongestIn] using h.1
  obtain ⟨c, h0, h1, h2⟩ := operator_byte w hw h'
  have hm : matchOperator (w ++ b) = w.length := by
    rw [matchOperator_eq, symbol_eq (tokens := operators.map fun w => (w, ())) (by decide +kernel) (by simp) (fun _ => Iff.rfl) h]
    rfl
  have hl : 0 < w.length := by cases w <;> simp at h0 ⊢
  refine wp_other (head_append h0) h1 h2 ?_
  unfold consumeOther
  rw [wp_bind, wp_rem]
  simp only [hm]
  rw [if_pos (by omega), wp_emit rfl hl hi]

theorem suffix_at {t : Bytes} {n base : Nat} (h : Suffixed t n base) :
    matchSuffixNumber t determineSuffix c!"_" =
      if suffixErroneous base c!"_" none (t.take n) && !(t.head?.any isDigit) then {}
      else ⟨n, 1, base, suffixErroneous base c!"_" none (t.take n)⟩ := by
  obtain ⟨h0, h1, c, hc, hb⟩ := h
  have hn : n < t.length := (List.getElem?_eq_some_iff.1 hc).1
  have hl : Ascii.length_if t (fun c => decide ((c!"_" : UInt8) = 0) || decide (c = c!"_") || isAlnum c) = n + 1 := by
    refine length_if_eq ?_ hn
    simpa only [alnum_iff] using h1
  unfold matchSuffixNumber
  generalize Ascii.length_if t _ = len at hl ⊢
  subst hl
  dsimp only
  rw [if_neg (by omega)]
  have hlast : (t.take (n + 1)).getLast? = some c := by
    rw [List.getLast?_eq_getElem?, List.length_take, Nat.min_eq_left hn]
    simpa using hc
  obtain ⟨hb1, hb2⟩ := (baseOfSuffix_iff c base).2 hb
  have hdet : determineSuffix (t.take (n + 1)) = (1, base) := by
    unfold determineSuffix
    rw [hlast]
    simp [hb1, hb2]
  rw [hdet]
  dsimp only
  rw [if_neg (by omega), Nat.add_sub_cancel, List.take_take, Nat.min_eq_left (by omega)]
  have hhead : (t.take (n + 1)).head? = t.head? := by simp [List.head?_eq_getElem?]
  rw [hhead]

theorem base_le {c : UInt8} {base : Nat} (h : (c, base) ∈ suffixBases) : base ≤ 16 := by
  have : ∀ e ∈ suffixBases, e.2 ≤ 16 := by decide +kernel
  exact this _ h

theorem alnum_take {t : Bytes} {n base : Nat} (h : Suffixed t n base) : ∀ c ∈ t.take n, AlnumChar c := by
  intro c hc
  refine h.2.1.1 c ?_
  rw [List.take_add_one]
  exact List.mem_append_left _ hc

theorem suffix_good {t : Bytes} {n base : Nat} (h : Suffixed t n base) (hd : ∀ d ∈ t.take n, DigitIn base d) :
    matchSuffixNumber t determineSuffix c!"_" = ⟨n, 1, base, false⟩ := by
  obtain ⟨h0, h1, c, hc, hb⟩ := id h
  have he : suffixErroneous base c!"_" none (t.take n) = false := by
    rw [Bool.eq_false_iff, ne_eq, suffixErroneous_iff (base_le hb) _ (alnum_take h)]
    rintro ⟨d, hm, hn⟩
    exact hn (hd d hm)
  rw [suffix_at h, he]
  rfl

theorem suffix_bad {t : Bytes} {n base : Nat} (h : Suffixed t n base) (hd : ∃ d ∈ t.take n, ¬ DigitIn base d)
    (hf : t.head?.any isDigit = true) : matchSuffixNumber t determineSuffix c!"_" = ⟨n, 1, base, true⟩ := by
  obtain ⟨h0, h1, c, hc, hb⟩ := id h
  rw [suffix_at h, (suffixErroneous_iff (base_le hb) _ (alnum_take h) none).2 hd, hf]
  rfl

theorem no_suffix {t : Bytes} (h : ∀ n base, ¬ Suffixed t n base) : (matchSuffixNumber t determineSuffix c!"_").digits = 0 := by
  rcases suffixNumber_facts t with h1 | ⟨n, base, e, _, _, _, h1, _⟩
  · exact h1
  · exact absurd h1 (h _ _)

/-- The bytes of a number with a letter for the base. -/
theorem suffixed_byte (c : UInt8) (h : AlnumChar c) : c ∉ b!" \t\r\n\"'`()[]{},;%" ∧ c ∉ b!"?:+-~!|&^></%" := by
  have : ∀ c : UInt8, (isAlnum c = true ∨ c = c!"_") → c ∉ b!" \t\r\n\"'`()[]{},;%" ∧ c ∉ b!"?:+-~!|&^></%" := by
    apply forall_byte
    decide +kernel
  refine this c ?_
  rw [isAlnum_iff]
  unfold AlnumChar at h
  grind

theorem operator_none {t : Bytes} {c : UInt8} (hc : t.head? = some c) (h : c ∉ b!"?:+-~!|&^></%") : matchOperator t = 0 := by
  cases t with
  | nil => rfl
  | cons d t =>
    cases hc
    simp at h
    simp [matchOperator, h]

/-- The number is found in both cases of the main loop. -/
theorem wp_number_case {t : Bytes} {c : UInt8} {env : HEnv} {i : Nat} {out : List Emit} {z : HS IdKind}
    (hc : t.head? = some c) (h : AlnumChar c) (h' : c ≠ c!"_")
    (hw : wp (HM.or expectSuffixedNumber expectCommonNumber) (fun r s => r = true ∧ s = z) env ⟨t, i, out, x⟩) :
    wp consumeAnything (fun _ s => s = z) env ⟨t, i, out, x⟩ := by
  obtain ⟨h1, h2⟩ := suffixed_byte c h
  have hnum : wp expectNumber (fun r s => r = true ∧ s = z) env ⟨t, i, out, x⟩ := by
    unfold expectNumber
    rw [wp_bind, wp_rem]
    dsimp only
    rw [if_neg (by
      cases t with
      | nil => simp
      | cons d t => cases hc; simp [startsWith_cons_cons, h'.symm])]
    exact hw
  cases hd : isDigit c with
  | true =>
    cases t with
    | nil => cases hc
    | cons d t =>
      cases hc
      unfold consumeAnything
      simp at h1
      simp [h1, hd]
      refine wp_mono hnum ?_
      rintro r s ⟨rfl, rfl⟩
      simp
  | false =>
    refine wp_other hc h1 hd ?_
    unfold consumeOther
    rw [wp_bind, wp_rem]
    dsimp only
    rw [operator_none hc h2]
    simp
    refine wp_mono hnum ?_
    rintro r s ⟨rfl, rfl⟩
    simp

theorem suffixed_first {ds : Bytes} {c : UInt8} {base : Nat} (h : Suffixed (ds ++ [c] ++ b) ds.length base) :
    ∃ d, (ds ++ [c] ++ b).head? = some d ∧ AlnumChar d := by
  obtain ⟨h0, h1, _⟩ := h
  cases ds with
  | nil => simp at h0
  | cons d ds => exact ⟨d, rfl, h1.1 d (by simp)⟩

theorem not_digit_underscore {base : Nat} : ¬ DigitIn base c!"_" := by
  rintro ⟨v, hv, _⟩
  simp [digitVal] at hv

theorem suffixed_take {ds : Bytes} {c : UInt8} : (ds ++ [c] ++ b).take ds.length = ds := by simp

theorem suffixed_found {ds : Bytes} {c : UInt8} {base : Nat} (h : Suffixed (ds ++ [c] ++ b) ds.length base)
    (h' : ∀ d ∈ ds, DigitIn base d) (h'' : base = 16 → ¬ Among Spec.Nasm.registers (ds ++ [c])) :
    Found consumeAnything opts x (ds ++ [c]) (parts 0 [(ds, .number), ([c], .number_decor)]) b x := by
  refine found_parts fun env i out _ hi => ?_
  obtain ⟨d, hd, ha⟩ := suffixed_first h
  have hds : ds ≠ [] := by
    intro e
    simp [e, Suffixed] at h
  have hfirst : d ∈ ds := by
    cases ds with
    | nil => exact absurd rfl hds
    | cons y ds => cases hd; simp
  have hm := suffix_good h (by rw [suffixed_take]; exact h')
  refine wp_number_case hd ha ?_ (wp_this ?_)
  · rintro rfl
    exact not_digit_underscore (h' _ hfirst)
  obtain ⟨_, _, e, he, hb⟩ := h
  have hec : e = c := by simpa using he.symm
  subst hec
  have htake : (ds ++ [e] ++ b).take (ds.length + 1) = ds ++ [e] := by
    rw [show ds.length + 1 = (ds ++ [e]).length by simp, List.take_left]
  have hp : base = 16 → ¬ binarySearch pseudoInstructions (ds ++ [e]) = true := by
    rintro rfl hs
    exact pseudo_never _ e ((binarySearch_iff pseudoInstructions_searchable _).1 hs) (by simp) hb
  unfold expectSuffixedNumber
  rw [wp_bind, wp_rem]
  simp only [hm, htake]
  rw [if_neg (by simpa using hds), if_neg (by rintro ⟨h1, h2⟩; exact hp h1 h2),
    if_neg (by rintro ⟨h1, h2⟩; exact h'' h1 ((registers_iff _).1 h2)), if_neg (by simp)]
  unfold HM.highlightDigits
  rw [wp_bind, wp_bind, wp_hassert]
  refine ⟨rfl, ?_⟩
  rw [wp_bind, wp_rem, wp_bind, wp_hassert]
  refine ⟨by simp, ?_⟩
  rw [suffixed_take, wp_digitsLoop_plain (fun hm => not_digit_underscore (h' _ hm)), Nat.zero_add, List.append_assoc,
    wp_digitsIgnore_iff (by simpa [Nat.add_assoc] using hi), wp_bind, wp_emit (by rfl) (by simp) (by simp at hi ⊢; omega)]
  simp [partsEmit, optEmit, hds]
  omega

theorem register_found {ds : Bytes} {c : UInt8} (h : Suffixed (ds ++ [c] ++ b) ds.length 16) (h' : ∀ d ∈ ds, DigitIn 16 d)
    (h'' : Among Spec.Nasm.registers (ds ++ [c])) :
    Found consumeAnything opts x (ds ++ [c]) [⟨0, ds.length + 1, .name_var⟩] b x := by
  refine found_one (mode := .normal) fun env i out _ hi => ?_
  obtain ⟨d, hd, ha⟩ := suffixed_first h
  have hds : ds ≠ [] := by
    intro e
    simp [e, Suffixed] at h
  have hfirst : d ∈ ds := by
    cases ds with
    | nil => exact absurd rfl hds
    | cons y ds => cases hd; simp
  have hm := suffix_good h (by rw [suffixed_take]; exact h')
  refine wp_number_case hd ha ?_ (wp_this ?_)
  · rintro rfl
    exact not_digit_underscore (h' _ hfirst)
  obtain ⟨_, _, e, he, hb⟩ := h
  have hec : e = c := by simpa using he.symm
  subst hec
  have htake : (ds ++ [e] ++ b).take (ds.length + 1) = ds ++ [e] := by
    rw [show ds.length + 1 = (ds ++ [e]).length by simp, List.take_left]
  have hp : ¬ binarySearch pseudoInstructions (ds ++ [e]) = true := by
    rintro hs
    exact pseudo_never _ e ((binarySearch_iff pseudoInstructions_searchable _).1 hs) (by simp) hb
  unfold expectSuffixedNumber
  rw [wp_bind, wp_rem]
  simp only [hm, htake]
  rw [if_neg (by simpa using hds), if_neg (by rintro ⟨h1, h2⟩; exact hp h2),
    if_pos ⟨by simp, (registers_iff _).2 h''⟩, wp_bind, wp_emit rfl (by simp) hi]
  simp

theorem bad_found {w : Bytes} {n base : Nat} (h : Suffixed (w ++ b) n base) (hn : w.length = n + 1)
    (d : ∃ c t, w = c :: t ∧ DecDigit c) (e : ∃ c ∈ w.take n, ¬ DigitIn base c) :
    Found consumeAnything opts x w [⟨0, w.length, .error⟩] b x := by
  refine found_one (mode := .normal) fun env i out _ hi => ?_
  obtain ⟨c, t, hw, hc⟩ := d
  have hd : (w ++ b).head? = some c := by simp [hw]
  have htake : (w ++ b).take n = w.take n := by
    rw [List.take_append_of_le_length (by omega)]
  have hm := suffix_bad h (by rw [htake]; exact e) (by simp [hd, (isDigit_iff c).2 hc])
  refine wp_number_case hd (.inr (.inl hc)) ?_ (wp_this ?_)
  · rintro rfl
    simp [DecDigit] at hc
  obtain ⟨h0, _, y, hy, hb⟩ := h
  have htake' : (w ++ b).take (n + 1) = w := by rw [← hn, List.take_left]
  have hlast : w.getLast? = some y := by
    rw [List.getLast?_eq_getElem?, hn, Nat.add_sub_cancel, ← hy, List.getElem?_append_left (by omega)]
  have hnr : ∀ w : Bytes, Among Spec.Nasm.registers w → w.head?.any isDigit = false := by
    intro w hr
    have : ∀ w ∈ Spec.Nasm.registers, w.head?.any isDigit = false := by decide +kernel
    have := this _ hr
    cases w with
    | nil => rfl
    | cons c w =>
      have hl : ∀ c : UInt8, isDigit c = true → isDigit (lower c) = true := by
        apply forall_byte
        decide +kernel
      simp at this ⊢
      rw [Bool.eq_false_iff] at this ⊢
      exact fun h => this (hl c h)
  unfold expectSuffixedNumber
  rw [wp_bind, wp_rem]
  simp only [hm, htake']
  rw [if_neg (by omega), if_neg ?_, if_neg ?_, if_pos (by simp), wp_bind, wp_emit (by omega) (by omega) hi]
  · simp [hn]
  · rintro ⟨_, h2⟩
    have := hnr w ((registers_iff _).1 h2)
    simp [hw, (isDigit_iff c).2 hc] at this
  · rintro ⟨rfl, h2⟩
    exact pseudo_never _ y ((binarySearch_iff pseudoInstructions_searchable _).1 h2) hlast hb

theorem options_eq {c : UInt8} {t : Bytes} (h : c ≠ c!"$") : matchCommonNumber (c :: t) numberOptions =
    matchCommonNumber (c :: t) { numberOptions with prefixes := numberOptions.prefixes.dropLast } := by
  have hp : numPrefix numberOptions (c :: t) =
      numPrefix { numberOptions with prefixes := numberOptions.prefixes.dropLast } (c :: t) := by
    unfold numPrefix
    have e : numberOptions.prefixes = numberOptions.prefixes.dropLast ++ [⟨b!"$", 16, false⟩] := rfl
    have : numberOptions.prefixes.find? (fun p => startsWith (c :: t) p.str) =
        numberOptions.prefixes.dropLast.find? (fun p => startsWith (c :: t) p.str) := by
      conv => lhs; rw [e]
      rw [List.find?_append]
      simp [startsWith_cons_cons, h.symm]
    rw [this]
  unfold matchCommonNumber
  have hs : numSign numberOptions (c :: t) = 0 := by simp [numSign, numberOptions]
  have hs' : numSign { numberOptions with prefixes := numberOptions.prefixes.dropLast } (c :: t) = 0 := hs
  rw [hs, hs']
  dsimp only
  rw [show numPrefix numberOptions ((c :: t).drop 0) = _ from hp]
  rfl

theorem number_found {n : Written} {R : Radix} (hR : R ∈ radixes) (h : Written.In n R) (h' : Boundary b)
    (h'' : ∀ k base, ¬ Suffixed (n.text ++ b) k base) :
    Found consumeAnything opts x n.text (parts 0 n.parts) b x := by
  refine found_parts fun env i out _ hi => ?_
  obtain ⟨h1, h2, h3, c, t, h4, h5⟩ := written_facts' (Rs := radixes)
    (o := { numberOptions with prefixes := numberOptions.prefixes.dropLast }) (by decide +kernel) (by decide +kernel)
    (.inl rfl) hR h h'
  have hc : c ≠ c!"$" := by
    rintro rfl
    simp [isDigit] at h5
  rw [h4, ← options_eq hc, ← h4] at h1
  refine wp_number_case (c := c) (by simp [h4]) (.inr (.inl ((isDigit_iff c).1 h5))) ?_ (wp_else ?_ ?_)
  · rintro rfl
    simp [isDigit] at h5
  · unfold expectSuffixedNumber
    show (if (matchSuffixNumber (n.text ++ b) determineSuffix c!"_").digits = 0 then pure false else _ : HM IdKind Bool) env _ = _
    rw [if_pos (no_suffix h'')]
    rfl
  · unfold expectCommonNumber
    rw [wp_bind, wp_rem]
    simp only [h1]
    rw [if_neg (by simpa using h3), wp_bind, wp_written_at (.inl rfl) h2 hi]
    simp

/-! ## Words -/

theorem word_byte (c : UInt8) : (isIdStart c = true ∧ c ∉ b!"?$") →
    c ∉ b!" \t\r\n\"'`()[]{},;%" ∧ isDigit c = false ∧ c ∉ b!"?:+-~!|&^></%" ∧ isDigitBase c 10 = false ∧
      c ≠ c!"0" ∧ c ≠ c!"$" := by
  revert c; apply forall_byte; decide +kernel

theorem identifier_eq {w : Bytes} (h : Id (w ++ b) w.length) : matchIdentifier (w ++ b) = w.length := by
  obtain ⟨h0, ⟨c, hc, hs⟩, hl⟩ := h
  obtain ⟨h1, h2, _, _, h3⟩ := identifier_facts hc ((idStart_iff c).2 hs)
  have := Longest.unique h3 hl (by simp at h2 ⊢; omega) (by simp; omega)
  omega

/-- What is done with a word. -/
theorem wp_word {w : Bytes} {env : HEnv} {i : Nat} {out : List Emit} {Q : Unit → HS IdKind → Prop} (h : IsWord w b)
    (hw : wp consumeIdentifier Q env ⟨w ++ b, i, out, x⟩) : wp consumeAnything Q env ⟨w ++ b, i, out, x⟩ := by
  obtain ⟨h1, h2, h3, h4⟩ := h
  obtain ⟨c, t, rfl⟩ : ∃ c t, w = c :: t := List.exists_cons_of_ne_nil (by rintro rfl; simp [Spec.Nasm.Id] at h1)
  obtain ⟨_, ⟨d, hd, hs⟩, hl⟩ := h1
  have : d = c := by simpa using hd.symm
  subst this
  rw [notFirst_cons] at h2
  have hs' := (idStart_iff d).2 hs
  obtain ⟨g1, g2, g3, g4, g5, g6⟩ := word_byte d ⟨hs', h2⟩
  refine wp_other (c := d) rfl g1 g2 ?_
  unfold consumeOther
  rw [wp_bind, wp_rem]
  dsimp only
  rw [operator_none (c := d) rfl g3]
  simp
  have hsuf : expectSuffixedNumber env ⟨d :: (t ++ b), i, out, x⟩ = .ok (false, ⟨d :: (t ++ b), i, out, x⟩) := by
    unfold expectSuffixedNumber
    show (if (matchSuffixNumber (d :: (t ++ b)) determineSuffix c!"_").digits = 0 then pure false else _ : HM IdKind Bool) env _ = _
    rw [if_pos]
    · rfl
    rcases suffixNumber_facts (d :: (t ++ b)) with h5 | ⟨n, base, e, h5, h6, h7, h8, h9, h10⟩
    · exact h5
    · exfalso
      cases e with
      | true =>
        obtain ⟨⟨y, hy, hy'⟩, _⟩ := h10 rfl
        simp at hy
        subst hy
        rw [(isDigit_iff _).2 hy'] at g2
        cases g2
      | false =>
        obtain ⟨y, hy⟩ : ∃ y, (d :: (t ++ b))[n]? = some y := ⟨_, List.getElem?_eq_getElem (by omega)⟩
        have e1 : (d :: (t ++ b)).take (n + 1) = (d :: (t ++ b)).take n ++ [y] := by
          rw [List.take_add_one, hy]
          rfl
        refine h4 ((d :: (t ++ b)).take (n + 1)) ((d :: (t ++ b)).drop (n + 1)) base (by simp) ⟨(d :: (t ++ b)).take n, y, e1, ?_, h9 rfl⟩
        rw [List.take_append_drop, List.length_take, Nat.min_eq_left (by omega)]
        exact h8
  have hnum : expectNumber env ⟨d :: (t ++ b), i, out, x⟩ = .ok (false, ⟨d :: (t ++ b), i, out, x⟩) := by
    unfold expectNumber
    show (if startsWith (d :: (t ++ b)) b!"_" = true then pure false else HM.or expectSuffixedNumber expectCommonNumber :
      HM IdKind Bool) env _ = _
    split
    · rfl
    · rename_i hu
      refine (or_ok hsuf).trans ?_
      unfold expectCommonNumber
      show (if (matchCommonNumber (d :: (t ++ b)) numberOptions).length = 0 then pure false else _ : HM IdKind Bool) env _ = _
      rw [matchCommonNumber_none' (by simp [numberOptions]) (by simp [numberOptions]) ?_ g4 g5 ?_ ?_]
      · rfl
      · have : ∀ p ∈ numberOptions.prefixes, p.str.head? = some c!"0" ∨ p.str.head? = some c!"$" := by decide +kernel
        intro p hp
        have := this p hp
        cases hstr : p.str with
        | nil => simp [hstr] at this
        | cons y r =>
          rw [hstr] at this
          simp at this
          rcases this with rfl | rfl
          · simp [startsWith_cons_cons, g5.symm]
          · simp [startsWith_cons_cons, g6.symm]
      · rintro rfl
        cases t with
        | nil =>
          have := hl.2
          simp at this
          cases b with
          | nil => rfl
          | cons y b =>
            simp at this ⊢
            rw [Bool.eq_false_iff, ne_eq, isDigit_iff]
            exact fun hy => this (.inr (.inl hy))
        | cons y t =>
          have := h3 y t rfl
          simp
          rw [Bool.eq_false_iff, ne_eq, isDigit_iff]
          exact this
      · rintro rfl
        simp [startsWith_cons_cons, numberOptions] at hu
  refine ((wp_of_ok hnum).2 ?_)
  simp [hs']
  exact hw

theorem IsWord.pos {w : Bytes} (h : IsWord w b) : 0 < w.length := h.1.1

theorem label_found {w : Bytes} (h : IsWord w (b!":" ++ b)) (h' : ¬ Among [b!"seg", b!"wrt"] w) :
    Found consumeAnything opts x (w ++ b!":") [⟨0, w.length + 1, .name_label_decl⟩] b .instruction := by
  refine found_one (mode := .normal) fun env i out _ hi => ?_
  rw [List.append_assoc]
  refine wp_word h ?_
  have hm := identifier_eq h.1
  have hc : (w ++ (b!":" ++ b))[w.length]? = some c!":" := by simp
  unfold consumeIdentifier
  rw [wp_bind, wp_rem]
  simp only [hm, List.take_left, hc]
  rw [wp_bind, wp_hassert]
  refine ⟨by simpa using IsWord.pos h, ?_⟩
  rw [if_neg (fun h => h' ((seg_iff w).1 h)), if_pos (by simp), wp_bind, ← List.append_assoc,
    wp_emit (a := w ++ b!":") (by simp) (by simp) hi, wp_put]
  simp

theorem localLabel_found {w : Bytes} (h : IsWord w b) (h' : w.head? = some c!".") (h'' : b.head? ≠ some c!":") :
    Found consumeAnything opts x w [⟨0, w.length, .name_label_decl⟩] b .instruction := by
  refine found_one (mode := .normal) fun env i out _ hi => ?_
  refine wp_word h ?_
  have hm := identifier_eq h.1
  have hc : (w ++ b)[w.length]? ≠ some c!":" := by
    rw [List.getElem?_append_right (by omega), Nat.sub_self, ← List.head?_eq_getElem?]
    exact h''
  have hn : ¬ Among [b!"seg", b!"wrt"] w := by
    cases w with
    | nil => cases h'
    | cons c w =>
      cases h'
      simp [Among, lower]
  have hs : startsWith (w ++ b) b!"." = true := by
    cases w with
    | nil => cases h'
    | cons c w =>
      cases h'
      simp [startsWith_cons_cons]
  unfold consumeIdentifier
  rw [wp_bind, wp_rem]
  simp only [hm, List.take_left]
  rw [wp_bind, wp_hassert]
  refine ⟨by simpa using IsWord.pos h, ?_⟩
  rw [if_neg (fun h => hn ((seg_iff w).1 h)), if_neg hc, if_pos hs, wp_bind, wp_emit rfl (IsWord.pos h) hi, wp_put]

theorem operatorKeywords_iff (w : Bytes) : binarySearch operatorKeywords w = true ↔ Among [b!"seg", b!"wrt"] w :=
  binarySearch_iff operatorKeywords_searchable w

theorem not_dollar {w : Bytes} (h : IsWord w b) : startsWith w b!"$" = false := by
  cases w with
  | nil => rfl
  | cons c w =>
    have := h.2.1
    rw [notFirst_cons] at this
    simp at this
    simp [startsWith_cons_cons]
    exact fun h => this.2 h.symm

/-- A word that is not a label: the tables are consulted in their order. -/
theorem wp_plain_word {w : Bytes} {env : HEnv} {i : Nat} {out : List Emit} {Q : Unit → HS IdKind → Prop} (h : IsWord w b)
    (h1 : w.head? ≠ some c!".") (h2 : b.head? ≠ some c!":") (hs : ¬ Among [b!"seg", b!"wrt"] w)
    (hi : i + (w ++ b).length = env.src.length) (ty : HT) (y : IdKind)
    (hk : if binarySearch Nasm.types w = true then ty = .keyword_type ∧ y = .var
      else if binarySearch Nasm.registers w = true then ty = .name_var ∧ y = .var
      else if binarySearch labelInstructions w = true then ty = .name_instruction ∧ y = .label
      else ty = x.type ∧ y = if x = .instruction then .var else x)
    (hQ : Q () ⟨b, i + w.length, out ++ [⟨i, w.length, ty, .normal⟩], y⟩) :
    wp consumeAnything Q env ⟨w ++ b, i, out, x⟩ := by
  refine wp_word h ?_
  have hm := identifier_eq h.1
  have hc : (w ++ b)[w.length]? ≠ some c!":" := by
    rw [List.getElem?_append_right (by omega), Nat.sub_self, ← List.head?_eq_getElem?]
    exact h2
  have hp := IsWord.pos h
  have hd : ¬ startsWith (w ++ b) b!"." = true := by
    cases w with
    | nil => simp at hp
    | cons c w =>
      simp at h1
      simp [startsWith_cons_cons]
      exact fun h => h1 h.symm
  unfold consumeIdentifier
  rw [wp_bind, wp_rem]
  simp only [hm, List.take_left]
  rw [wp_bind, wp_hassert]
  refine ⟨by simpa using hp, ?_⟩
  rw [if_neg (fun h => hs ((seg_iff w).1 h)), if_neg hc, if_neg hd]
  split at hk
  · rename_i e
    obtain ⟨rfl, rfl⟩ := hk
    rw [if_pos e, wp_bind, wp_emit rfl hp hi, wp_put]
    exact hQ
  rename_i e
  rw [if_neg e, if_neg (fun h => hs ((operatorKeywords_iff w).1 h))]
  split at hk
  · rename_i e
    obtain ⟨rfl, rfl⟩ := hk
    rw [if_pos e, wp_bind, wp_emit rfl hp hi, wp_put]
    exact hQ
  rename_i e
  rw [if_neg e]
  split at hk
  · rename_i e
    obtain ⟨rfl, rfl⟩ := hk
    rw [if_pos e, wp_bind, wp_emit rfl hp hi, wp_put]
    exact hQ
  rename_i e
  obtain ⟨rfl, rfl⟩ := hk
  rw [if_neg e, if_neg (by simp [not_dollar h]), wp_bind, wp_get]
  dsimp only
  rw [wp_bind, wp_emit rfl hp hi, wp_put]
  exact hQ

/-- The tables have no words in common. -/
theorem types_disjoint {w : Bytes} (h : Among Spec.Nasm.types w) : ¬ Among [b!"seg", b!"wrt"] w ∧ w.head? ≠ some c!"." := by
  have : ∀ w ∈ Spec.Nasm.types, w ∉ [b!"seg", b!"wrt"] ∧ w.head? ≠ some c!"." := by decide +kernel
  refine ⟨(this _ h).1, fun e => (this _ h).2 ?_⟩
  simp [e, lower]

theorem registers_disjoint {w : Bytes} (h : Among Spec.Nasm.registers w) :
    ¬ Among [b!"seg", b!"wrt"] w ∧ w.head? ≠ some c!"." ∧ ¬ Among Spec.Nasm.types w := by
  have : ∀ w ∈ Spec.Nasm.registers, w ∉ [b!"seg", b!"wrt"] ∧ w.head? ≠ some c!"." ∧ w ∉ Spec.Nasm.types := by decide +kernel
  refine ⟨(this _ h).1, fun e => (this _ h).2.1 ?_, (this _ h).2.2⟩
  simp [e, lower]

theorem jumps_disjoint {w : Bytes} (h : Among jumps w) : ¬ Among [b!"seg", b!"wrt"] w ∧ w.head? ≠ some c!"." ∧
    ¬ Among Spec.Nasm.types w ∧ ¬ Among Spec.Nasm.registers w := by
  have : ∀ w ∈ jumps, w ∉ [b!"seg", b!"wrt"] ∧ w.head? ≠ some c!"." ∧ w ∉ Spec.Nasm.types ∧ w ∉ Spec.Nasm.registers := by
    decide +kernel
  refine ⟨(this _ h).1, fun e => (this _ h).2.1 ?_, (this _ h).2.2⟩
  simp [e, lower]

theorem tabled_found {k : Kind} {w : Bytes} {t : List Bytes} {ty : HT} {l : Option Kind} (h : IsWord w b)
    (h' : (t, ty, l) ∈ tables) (h'' : Among t w) (hb : w.map lower ∉ [b!"seg", b!"wrt"] → b.head? ≠ some c!":") :
    Found consumeAnything opts (kindOf k) w [⟨0, w.length, ty⟩] b (kindOf (l.getD k)) := by
  refine found_one (mode := .normal) fun env i out _ hi => ?_
  simp only [tables, List.mem_cons, Prod.mk.injEq, List.not_mem_nil, or_false] at h'
  rcases h' with ⟨rfl, rfl, rfl⟩ | ⟨rfl, rfl, rfl⟩ | ⟨rfl, rfl, rfl⟩ | ⟨rfl, rfl, rfl⟩
  · refine wp_word h ?_
    have hm := identifier_eq h.1
    unfold consumeIdentifier
    rw [wp_bind, wp_rem]
    simp only [hm, List.take_left]
    rw [wp_bind, wp_hassert]
    refine ⟨by simpa using IsWord.pos h, ?_⟩
    rw [if_pos ((seg_iff w).2 h''), wp_emit rfl (IsWord.pos h) hi]
    rfl
  · obtain ⟨h1, h2⟩ := types_disjoint h''
    refine wp_plain_word h h2 (hb h1) h1 hi _ _ ?_ rfl
    rw [if_pos ((types_iff w).2 h'')]
    exact ⟨rfl, rfl⟩
  · obtain ⟨h1, h2, h3⟩ := registers_disjoint h''
    refine wp_plain_word h h2 (hb h1) h1 hi _ _ ?_ rfl
    rw [if_neg (fun h => h3 ((types_iff w).1 h)), if_pos ((registers_iff w).2 h'')]
    exact ⟨rfl, rfl⟩
  · obtain ⟨h1, h2, h3, h4⟩ := jumps_disjoint h''
    refine wp_plain_word h h2 (hb h1) h1 hi _ _ ?_ rfl
    rw [if_neg (fun h => h3 ((types_iff w).1 h)), if_neg (fun h => h4 ((registers_iff w).1 h)), if_pos ((jumps_iff w).2 h'')]
    exact ⟨rfl, rfl⟩

theorem word_found {k : Kind} {w : Bytes} (h : IsWord w b) (h' : ∀ x ∈ tables, ¬ Among x.1 w) (h'' : w.head? ≠ some c!".")
    (hb : b.head? ≠ some c!":") : Found consumeAnything opts (kindOf k) w [⟨0, w.length, k.type⟩] b (kindOf k.next) := by
  refine found_one (mode := .normal) fun env i out _ hi => ?_
  simp only [tables, List.forall_mem_cons] at h'
  obtain ⟨h1, h2, h3, h4, _⟩ := h'
  refine wp_plain_word h h'' hb h1 hi _ _ ?_ rfl
  rw [if_neg (fun h => h2 ((types_iff w).1 h)), if_neg (fun h => h3 ((registers_iff w).1 h)),
    if_neg (fun h => h4 ((jumps_iff w).1 h))]
  cases k <;> exact ⟨rfl, rfl⟩

theorem unknown_found {c : UInt8} (h : ¬ IdStart c) (h' : ¬ DecDigit c) (h'' : c ∉ b!" \t\r\n()[]{},;%'\"`?:+-~!|&^></") :
    Found consumeAnything opts x [c] [⟨0, 1, .error⟩] b x := by
  refine found_one (mode := .forced) fun env i out _ hi => ?_
  have hd : isDigit c = false := by rw [Bool.eq_false_iff, ne_eq, isDigit_iff]; exact h'
  have hs : isIdStart c = false := by rw [Bool.eq_false_iff, ne_eq, idStart_iff]; exact h
  have h1 : c ∉ b!" \t\r\n\"'`()[]{},;%" := by simp at h'' ⊢; simp [h'']
  have h2 : c ∉ b!"?:+-~!|&^></%" := by simp at h'' ⊢; simp [h'']
  have hbytes : ∀ c : UInt8, (isDigit c = false ∧ isIdStart c = false) → isDigitBase c 10 = false ∧ c ≠ c!"0" ∧ c ≠ c!"$" ∧
      c ≠ c!"." ∧ c ≠ c!"_" ∧ isAlnum c = false := by
    apply forall_byte
    decide +kernel
  obtain ⟨g1, g2, g3, g4, g5, g6⟩ := hbytes c ⟨hd, hs⟩
  refine wp_other (c := c) rfl h1 hd ?_
  unfold consumeOther
  rw [wp_bind, wp_rem]
  dsimp only
  rw [operator_none (c := c) rfl h2]
  simp
  have hsuf : expectSuffixedNumber env ⟨c :: b, i, out, x⟩ = .ok (false, ⟨c :: b, i, out, x⟩) := by
    unfold expectSuffixedNumber
    show (if (matchSuffixNumber (c :: b) determineSuffix c!"_").digits = 0 then pure false else _ : HM IdKind Bool) env _ = _
    rw [if_pos]
    · rfl
    refine no_suffix ?_
    rintro n base ⟨_, hl, _⟩
    have := hl.1 c (by simp)
    unfold AlnumChar at this
    rw [Bool.eq_false_iff, ne_eq, isAlnum_iff] at g6
    grind
  have hnum : expectNumber env ⟨c :: b, i, out, x⟩ = .ok (false, ⟨c :: b, i, out, x⟩) := by
    unfold expectNumber
    show (if startsWith (c :: b) b!"_" = true then pure false else HM.or expectSuffixedNumber expectCommonNumber :
      HM IdKind Bool) env _ = _
    rw [if_neg (by simp [startsWith_cons_cons, g5.symm])]
    refine (or_ok hsuf).trans ?_
    unfold expectCommonNumber
    show (if (matchCommonNumber (c :: b) numberOptions).length = 0 then pure false else _ : HM IdKind Bool) env _ = _
    rw [matchCommonNumber_none' (by simp [numberOptions]) (by simp [numberOptions]) ?_ g1 g2 (fun h => absurd h g4) g5]
    · rfl
    · simp [numberOptions, startsWith_cons_cons, g2.symm, g3.symm]
  refine ((wp_of_ok hnum).2 ?_)
  simp [hs]
  rw [wp_emit_byte (by simpa using hi)]

theorem element_found {k l : Kind} {a b : Bytes} {ts : List Token} (h : Element k a ts b l) :
    a ≠ [] ∧ Found consumeAnything opts (kindOf k) a ts b (kindOf l) := by
  cases h with
  | space h => exact ⟨by simp, space_found h⟩
  | line h => exact ⟨by simp, line_found h⟩
  | symbol h => exact ⟨by simp, symbol_found h⟩
  | comment h => exact ⟨by simp, comment_found h⟩
  | directive h => exact ⟨by simp, directive_found h⟩
  | string hq h => exact ⟨by simp, string_found hq h⟩
  | openString hq h h' => exact ⟨by simp, openString_found hq h h'⟩
  | backquoted h => exact ⟨by simp [quoted], backquoted_found h⟩
  | operator h h' =>
    refine ⟨?_, operator_found h h'⟩
    rintro rfl
    have : ([] : Bytes) ∈ operators := by simpa [LongestIn] using h.1
    revert this
    decide +kernel
  | suffixed h h' h'' => exact ⟨by simp, suffixed_found h h' h''⟩
  | register h h' h'' => exact ⟨by simp, register_found h h' h''⟩
  | badNumber h hn d e => exact ⟨by rintro rfl; simp at hn, bad_found h hn d e⟩
  | number hR h h' h'' =>
    refine ⟨?_, number_found hR h h' h''⟩
    have := (written_facts' (Rs := radixes)
      (o := { numberOptions with prefixes := numberOptions.prefixes.dropLast }) (by decide +kernel) (by decide +kernel)
      (.inl rfl) hR h h').2.2.1
    rintro e
    simp [e] at this
  | label h h' => exact ⟨by simp, label_found h h'⟩
  | localLabel h h' h'' => exact ⟨by (rintro rfl; cases h'), localLabel_found h h' h''⟩
  | tabled h h' h'' hb => exact ⟨by rintro rfl; have := IsWord.pos h; simp at this, tabled_found h h' h'' hb⟩
  | word h h' h'' hb => exact ⟨by rintro rfl; have := IsWord.pos h; simp at this, word_found h h' h'' hb⟩
  | unknown h h' h'' => exact ⟨by simp, unknown_found h h' h''⟩

/-- Texts that are sequences of the lexical elements of NASM get exactly the tokens of the elements. -/
theorem C58_nasm : ExactIn highlight (fun _ => Element) .instruction :=
  exactIn_of_found (R := kindOf) (fun _ => rfl) fun _ _ _ _ _ _ h => element_found h

/-- Defect: hexadecimal literals that end with the digit `b` or `d` are highlighted as errors, because this digit is taken for
a letter that stands for the base. -/
theorem C58_nasm_hex {x c : UInt8} {ds : Bytes} (hx : x ∈ b!"xX") (hd : ∀ d ∈ ds, Hex d) (hc : c ∈ b!"bBdD")
    (debug : Bool) (opts : Opts) : ∃ es, highlight debug opts ([c!"0", x] ++ ds ++ [c]) = .ok (true, es) ∧
      es.map Emit.token = [⟨0, ds.length + 3, .error⟩] := by
  have hx' : AlnumChar x ∧ ∀ base ≤ 10, ¬ DigitIn base x := by
    simp at hx
    rcases hx with rfl | rfl
    all_goals
      refine ⟨by simp [AlnumChar, Letter], ?_⟩
      rintro base hb ⟨v, hv, _⟩
      simp [digitVal] at hv
      omega
  have ha : ∀ d, Hex d → AlnumChar d := by
    intro d h
    unfold Hex at h
    unfold AlnumChar Letter DecDigit
    omega
  obtain ⟨base, hb, hs, hc'⟩ : ∃ base ≤ 10, (lower c, base) ∈ suffixBases ∧ AlnumChar c := by
    simp at hc
    rcases hc with rfl | rfl | rfl | rfl
    · exact ⟨2, by decide, by decide, by simp [AlnumChar, Letter]⟩
    · exact ⟨2, by decide, by decide, by simp [AlnumChar, Letter]⟩
    · exact ⟨10, by decide, by decide, by simp [AlnumChar, Letter]⟩
    · exact ⟨10, by decide, by decide, by simp [AlnumChar, Letter]⟩
  have hp : ProgramIn (Element) .instruction [] [] := .nil
  have hp := hp.before ([c!"0", x] ++ ds ++ [c]) (.badNumber (n := ds.length + 2) (base := base) ?_ (by simp) ⟨c!"0", _, rfl, by simp [DecDigit]⟩
    ⟨x, by simp, hx'.2 base hb⟩)
  · have := C58_nasm.of_program (opts := opts) ⟨_, hp, rfl⟩ debug
    simpa [shift] using this
  · refine ⟨by omega, ⟨?_, by simp⟩, c, by simp, hs⟩
    intro d hm
    have := List.mem_of_mem_take hm
    simp at this
    rcases this with rfl | rfl | h | rfl
    · exact .inr (.inl (by simp [DecDigit]))
    · exact hx'.1
    · exact ha d (hd d h)
    · exact hc'

theorem word_of {w b : Bytes} (h : (w.head?.any (fun c => isIdStart c && c ∉ b!"?$.") && (w.drop 1).all isId &&
    b.head?.all (!isId ·) && (matchSuffixNumber (w ++ b) determineSuffix c!"_").digits == 0) = true) : IsWord w b := by
  cases w with
  | nil => simp at h
  | cons c t =>
    simp at h
    obtain ⟨⟨⟨⟨h1, h2⟩, h3⟩, h4⟩, h5⟩ := h
    refine ⟨⟨by simp, ⟨c, rfl, (idStart_iff c).1 h1⟩, ?_⟩, ?_, ?_, ?_⟩
    · constructor
      · intro d hd
        simp at hd
        exact (id_iff d).1 (h3 d hd)
      · intro d hd
        simp at hd
        rw [List.getElem?_append_right (by omega), Nat.sub_self, ← List.head?_eq_getElem?] at hd
        rw [hd] at h4
        rw [← id_iff]
        simpa using h4
    · rw [notFirst_cons]
      simp [h2]
    · rintro d u e
      cases e
      simp at h2
    · rintro v r base e ⟨ds, y, rfl, hs, hd⟩
      have hs' := suffix_good hs (by rw [suffixed_take]; exact hd)
      rw [← e] at hs'
      have := hs.1
      simp at hs'
      simp [hs'] at h5
      simp [h5] at this

theorem no_suffix_of {t : Bytes} (h : (t.head?.any isDigit && (matchSuffixNumber t determineSuffix c!"_").digits == 0) = true) (n base : Nat) :
    ¬ Suffixed t n base := by
  intro hs
  simp at h
  have h0 := hs.1
  have h2 := h.2
  have h1 : t.head?.any isDigit = true := by simpa using h.1
  rw [suffix_at hs, h1] at h2
  simp at h2
  omega

example : ∃ es, highlight true {} b!"mov ax,0x1F ;c\njmp x" = .ok (true, es) ∧
    es.map Emit.token = [⟨0, 3, .name_instruction⟩, ⟨4, 2, .name_var⟩, ⟨6, 1, .symbol_punc⟩, ⟨7, 2, .number_decor⟩,
      ⟨9, 2, .number⟩, ⟨12, 1, .comment_delim⟩, ⟨13, 1, .comment⟩, ⟨15, 3, .name_instruction⟩, ⟨19, 1, .name_label⟩] := by
  have hp : ProgramIn Element .label [] [] := .nil
  have hp := hp.before b!"x" (.word (k := .label) (w := b!"x") (word_of (by decide +kernel))
    (by unfold Among; decide +kernel) (by decide) (by decide))
  have hp := hp.before b!" " (.space (by decide))
  have hp := hp.before b!"jmp" (.tabled (k := .instruction) (t := jumps) (ty := .name_instruction) (l := some .label)
    (word_of (by decide +kernel)) (by simp [tables]) (by unfold Among; decide +kernel) (by decide))
  have hp := hp.before b!";c\n" (.comment (k := .var) (t := b!"c") (e := b!"\n") ⟨rfl, by decide, by decide⟩)
  have hp := hp.before b!" " (.space (by decide))
  have hp := hp.before b!"0x1F" (.number (n := { pre := b!"0x", int := [b!"1F"] }) (R := { pre := b!"0x", base := 16 }) (by simp [radixes])
    ⟨rfl, .inl ⟨by simp, by simp [Digits]; decide, by simp⟩, by simp, .inl ⟨rfl, rfl⟩, .inl ⟨rfl, rfl⟩, .inl rfl⟩
    (boundary_space _) (no_suffix_of (by decide +kernel)))
  have hp := hp.before b!"," (.symbol (ty := .symbol_punc) (by decide))
  have hp := hp.before b!"ax" (.register (k := .var) (ds := b!"a") (c := c!"x")
    ⟨by decide, ⟨by simp [AlnumChar, Letter], by simp [AlnumChar, Letter, DecDigit]⟩, c!"x", by simp, by decide⟩
    (by simp [DigitIn, digitVal]) (by unfold Among; decide +kernel))
  have hp := hp.before b!" " (.space (by decide))
  have hp := hp.before b!"mov" (.word (k := .instruction) (w := b!"mov")
    (word_of (by decide +kernel)) (by unfold Among; decide +kernel) (by decide) (by decide))
  exact C58_nasm.of_program ⟨_, hp, rfl⟩ _

end Ulight.Nasm
