import Verif.Lang.Cowel
import Verif.Spec.Lang.Cowel
import Verif.Props.Lang.Xml

/-!
# C50: highlighting of COWEL
-/

namespace Ulight

open Spec Utf8

namespace Cowel

open Spec.Cowel


local instance (c : UInt8) : Decidable (InLine c) := by
  unfold InLine
  infer_instance

/-! ## Characters -/

theorem isHorizontal_iff (c : UInt8) : isHorizontal c = true ↔ Horizontal c := by
  simp [isHorizontal, Horizontal]

theorem isSpace_iff (c : UInt8) : isHtmlWhitespace c = true ↔ Space c := by
  revert c
  unfold Space
  apply forall_byte
  decide +kernel

theorem isIdStart_iff (c : UInt8) : isIdStart c = true ↔ Start c := by
  simp [isIdStart, Start, ← isAlpha_iff]

theorem isId_iff (c : UInt8) : isId c = true ↔ Continue c := by
  simp [isId, Continue, ← isIdStart_iff, ← isDigit_iff]

theorem isEscapeable_iff (c : UInt8) : isEscapeable c = true ↔ c ∈ b!"{}\\\"'+\r\n" := by
  simp [isEscapeable]

theorem not_inLine_iff (c : UInt8) : (c = 0x0D || c = 0x0A) = true ↔ ¬ InLine c := by
  unfold InLine
  simp
  grind

theorem isReserved_iff (c : UInt8) : isReservedEscapable c = true ↔
    c.toNat < 0x80 ∧ ¬ Start c ∧ c ∉ b!"{}\\\"'+:*( \n\r" := by
  rw [← isIdStart_iff]
  revert c
  apply forall_byte
  decide +kernel

/-! ## Identifiers -/

theorem identifier_eq (c : UInt8) (t : Bytes) :
    matchIdentifier (c :: t) = if isIdStart c then Ascii.length_if (c :: t) isId 1 else 0 := by
  by_cases h : isIdStart c = true
  · simp [matchIdentifier, Ascii.length_if_head_tail, h]
    rfl
  · simp [matchIdentifier, Ascii.length_if_head_tail, h]

theorem identifier_le (s : Bytes) : matchIdentifier s ≤ s.length := by
  cases s with
  | nil => simp [matchIdentifier, Ascii.length_if_head_tail]
  | cons c t =>
    rw [identifier_eq]
    split
    · exact (length_if_le _ _ _ (by simp)).2
    · simp

theorem identifier_zero {s : Bytes} (h : matchIdentifier s = 0) : ∀ c, s[0]? = some c → ¬ Start c := by
  cases s with
  | nil => simp
  | cons c t =>
    rw [identifier_eq] at h
    split at h
    · have := length_if_le (c :: t) isId 1 (by simp)
      omega
    · rename_i hc
      simp only [List.getElem?_cons_zero, Option.some.injEq, forall_eq']
      rwa [← isIdStart_iff]

theorem identifier_ident {s : Bytes} (h : matchIdentifier s ≠ 0) : Ident s (matchIdentifier s) := by
  cases s with
  | nil => simp [matchIdentifier, Ascii.length_if_head_tail] at h
  | cons c t =>
    rw [identifier_eq] at *
    split at h
    · rename_i hc
      rw [if_pos hc]
      have hl := length_if_le (c :: t) isId 1 (by simp)
      have ha := length_if_longest (c :: t) isId Continue isId_iff 1 (by simp)
      refine ⟨⟨c, rfl, (isIdStart_iff c).1 hc⟩, by omega, ?_⟩
      generalize Ascii.length_if (c :: t) isId 1 = n at *
      obtain ⟨m, rfl⟩ : ∃ m, n = m + 1 := ⟨n - 1, by omega⟩
      simp only [List.drop_succ_cons, List.drop_zero, Nat.add_sub_cancel] at ha
      constructor
      · simp only [List.take_succ_cons, List.mem_cons, forall_eq_or_imp]
        exact ⟨Or.inl ((isIdStart_iff c).1 hc), ha.1⟩
      · simpa using ha.2
    · simp at h

/-! ## Whitespace and comments -/

theorem whitespace_facts (s : Bytes) : matchWhitespace s ≤ s.length ∧ Longest Space s (matchWhitespace s) :=
  ⟨(length_if_le s _ 0 (by omega)).2, length_if_zero_longest s _ Space isSpace_iff⟩

theorem whitespace_zero {s : Bytes} (h : matchWhitespace s = 0) : ∀ c, s[0]? = some c → ¬ Space c := by
  have := (whitespace_facts s).2.2
  rwa [h] at this

theorem lineComment_facts {s : Bytes} (h : matchLineComment s ≠ 0) : s.take 2 = b!"\\:" ∧
    2 ≤ matchLineComment s ∧ matchLineComment s ≤ s.length ∧
    Longest InLine (s.drop 2) (matchLineComment s - 2) := by
  unfold matchLineComment at *
  split at h
  · simp at h
  · rename_i hs
    rw [if_neg hs]
    obtain ⟨h1, h2⟩ := startsWith_facts (by simpa using hs) _ rfl
    have := length_if_not_le s (fun c => c = 0x0D || c = 0x0A) 2 (by simpa using h1)
    refine ⟨h2, this.1, this.2, length_if_not_longest s _ InLine ?_ 2 (by simpa using h1)⟩
    intro c
    rw [← Bool.not_eq_true, not_inLine_iff]
    exact Classical.not_not

theorem lineComment_zero {s : Bytes} (h : matchLineComment s = 0) : s.take 2 ≠ b!"\\:" := by
  unfold matchLineComment at *
  split at h
  · rename_i hs
    intro e
    simp only [Bool.not_eq_true', ← Bool.not_eq_true] at hs
    exact hs (Xml.take_of_startsWith.2 e)
  · rename_i hs
    obtain ⟨h1, h2⟩ := startsWith_facts (by simpa using hs) _ rfl
    have := length_if_not_le s (fun c => c = 0x0D || c = 0x0A) 2 (by simpa using h1)
    omega

theorem blockComment_zero {s : Bytes} (h : (matchBlockComment s).length = 0) : s.take 2 ≠ b!"\\*" := by
  unfold matchBlockComment at h
  split at h
  · rename_i hs
    intro e
    simp only [Bool.not_eq_true', ← Bool.not_eq_true] at hs
    exact hs (Xml.take_of_startsWith.2 e)
  · rename_i hs
    obtain ⟨h1, h2⟩ := startsWith_facts (by simpa using hs) _ rfl
    split at h
    · simp at h1 h
      simp [h] at h1
    · simp at h

theorem blockComment_facts {s : Bytes} (h : (matchBlockComment s).length ≠ 0) : s.take 2 = b!"\\*" ∧
    2 ≤ (matchBlockComment s).length ∧ (matchBlockComment s).length ≤ s.length ∧
    (((matchBlockComment s).terminated = true ∧ 4 ≤ (matchBlockComment s).length ∧
      UpTo b!"*\\" (s.drop 2) ((matchBlockComment s).length - 4) ∧
      OccursAt b!"*\\" (s.drop 2) ((matchBlockComment s).length - 4)) ∨
    ((matchBlockComment s).terminated = false ∧ (matchBlockComment s).length = s.length ∧
      ∀ j, ¬ OccursAt b!"*\\" (s.drop 2) j)) := by
  unfold matchBlockComment at *
  split at h
  · simp at h
  · rename_i hs
    rw [if_neg hs]
    obtain ⟨h1, h2⟩ := startsWith_facts (by simpa using hs) _ rfl
    refine ⟨h2, ?_⟩
    have hf := findSub_spec b!"*\\" (s.drop 2)
    cases hk : findSub b!"*\\" (s.drop 2) with
    | none =>
      rw [hk] at hf
      exact ⟨by simpa using h1, Nat.le_refl _, Or.inr ⟨rfl, rfl, hf⟩⟩
    | some k =>
      rw [hk] at hf
      obtain ⟨a, b, hab, hl⟩ := hf.1
      have hl := congrArg List.length hab
      simp at hl h1
      refine ⟨by simp, by simp only; omega, Or.inl ⟨rfl, by simp, ?_, by simpa using hf.1⟩⟩
      refine ⟨fun j hj => ?_, Or.inr (by simpa using hf.1)⟩
      simp only
      rcases Nat.lt_or_ge j k with h | h
      · exact absurd hj (hf.2 j h)
      · omega

/-! ## `match_blank` -/

theorem blankLoop_fuel (f f' : Nat) (s : Bytes) (h : s.length < f) (h' : s.length < f') :
    blankLoop f s = blankLoop f' s := by
  induction f generalizing f' s with
  | zero => omega
  | succ f ih =>
    obtain ⟨g, rfl⟩ : ∃ g, f' = g + 1 := ⟨f' - 1, by omega⟩
    rw [blankLoop, blankLoop]
    have hw := whitespace_facts s
    split
    · rw [ih g _ (by simp; omega) (by simp; omega)]
    · split
      · have := lineComment_facts ‹_›
        rw [ih g _ (by simp; omega) (by simp; omega)]
      · split
        · have := blockComment_facts ‹_›
          rw [ih g _ (by simp; omega) (by simp; omega)]
        · rfl

theorem matchBlank_eq (s : Bytes) : matchBlank s =
    if matchWhitespace s ≠ 0 then matchWhitespace s + matchBlank (s.drop (matchWhitespace s))
    else if matchLineComment s ≠ 0 then matchLineComment s + matchBlank (s.drop (matchLineComment s))
    else if (matchBlockComment s).length ≠ 0 then
      (matchBlockComment s).length + matchBlank (s.drop (matchBlockComment s).length)
    else 0 := by
  rw [matchBlank, blankLoop]
  have hw := whitespace_facts s
  split
  · rw [matchBlank, blankLoop_fuel s.length ((s.drop (matchWhitespace s)).length + 1) _ (by simp; omega) (by omega)]
  · split
    · have := lineComment_facts ‹_›
      rw [matchBlank,
        blankLoop_fuel s.length ((s.drop (matchLineComment s)).length + 1) _ (by simp; omega) (by omega)]
    · split
      · have := blockComment_facts ‹_›
        rw [matchBlank,
          blankLoop_fuel s.length ((s.drop (matchBlockComment s).length).length + 1) _ (by simp; omega) (by omega)]
      · rfl

theorem matchBlank_spec (s : Bytes) : Blank s (matchBlank s) ∧ matchBlank s ≤ s.length := by
  generalize hn : s.length = n
  induction n using Nat.strongRecOn generalizing s with
  | _ n ih =>
    rw [matchBlank_eq]
    have hw := whitespace_facts s
    split
    · have := ih _ (by simp; omega) (s.drop (matchWhitespace s)) rfl
      simp at this
      exact ⟨.space hw.2 this.1, by omega⟩
    · rename_i h1
      split
      · have hl := lineComment_facts ‹_›
        have := ih _ (by simp; omega) (s.drop (matchLineComment s)) rfl
        simp at this
        have hb := Blank.line hl.1 hl.2.2.2 (n := matchBlank (s.drop (matchLineComment s)))
          (by rw [show 2 + (matchLineComment s - 2) = matchLineComment s by omega]; exact this.1)
        rw [show 2 + (matchLineComment s - 2) = matchLineComment s by omega] at hb
        exact ⟨hb, by omega⟩
      · rename_i h2
        split
        · obtain ⟨hl1, hl2, hl3, hl4⟩ := blockComment_facts ‹_›
          have := ih _ (by simp; omega) (s.drop (matchBlockComment s).length) rfl
          simp at this
          refine ⟨?_, by omega⟩
          rcases hl4 with ⟨_, h4, h5, h6⟩ | ⟨_, h4, h5⟩
          · have hb := Blank.block hl1 h5.1 h6 (n := matchBlank (s.drop (matchBlockComment s).length))
              (by rw [show (matchBlockComment s).length - 4 + 4 = (matchBlockComment s).length by omega]; exact this.1)
            rwa [show (matchBlockComment s).length - 4 + 4 = (matchBlockComment s).length by omega] at hb
          · rw [h4, List.drop_length, show matchBlank [] = 0 from rfl]
            exact .open_ hl1 h5
        · rename_i h3
          refine ⟨.done (whitespace_zero (by simpa using h1)) ?_, by omega⟩
          have := lineComment_zero (by simpa using h2)
          have := blockComment_zero (by simpa using h3)
          simp [*]

/-! ## Escape sequences -/

/-- The kinds of characters in hexadecimal codes. -/
def Upper (c : UInt8) : Prop := DecDigit c ∨ c ∈ b!"ABCDEF"

def Lower (c : UInt8) : Prop := DecDigit c ∨ c ∈ b!"abcdef"

theorem hexRun_dir (d : Int) (P : UInt8 → Prop) (hP : ∀ c, matchHex d c = some d ∧ P c ∨ matchHex d c = none ∧ ¬ P c)
    (u : Bytes) (k : Nat) : k ≤ hexRun d u ↔ k ≤ u.length ∧ ∀ c ∈ u.take k, P c := by
  induction u generalizing k with
  | nil => simp [hexRun]
  | cons c t ih =>
    cases k with
    | zero => simp
    | succ k =>
      rw [hexRun]
      rcases hP c with ⟨h1, h2⟩ | ⟨h1, h2⟩
      · rw [h1]
        have := ih k
        simp [h2]
        simpa using this
      · rw [h1]
        simp [h2]

theorem matchHex_upper (c : UInt8) : matchHex 1 c = some 1 ∧ Upper c ∨ matchHex 1 c = none ∧ ¬ Upper c := by
  unfold Upper
  rw [← isDigit_iff]
  revert c
  apply forall_byte
  decide +kernel

theorem matchHex_lower (c : UInt8) :
    matchHex (-1) c = some (-1) ∧ Lower c ∨ matchHex (-1) c = none ∧ ¬ Lower c := by
  unfold Lower
  rw [← isDigit_iff]
  revert c
  apply forall_byte
  decide +kernel

theorem matchHex_first (c : UInt8) :
    matchHex 0 c = some 0 ∧ Upper c ∧ Lower c ∨ matchHex 0 c = some 1 ∧ Upper c ∧ ¬ Lower c ∨
      matchHex 0 c = some (-1) ∧ Lower c ∧ ¬ Upper c ∨ matchHex 0 c = none ∧ ¬ Upper c ∧ ¬ Lower c := by
  have hd : matchHex 0 c = some 0 ∨ matchHex 0 c = some 1 ∨ matchHex 0 c = some (-1) ∨ matchHex 0 c = none := by
    revert c
    apply forall_byte
    decide +kernel
  have h1 : matchHex 0 c = some 0 ↔ (isDigit c = true) := by
    clear hd
    revert c
    apply forall_byte
    decide +kernel
  have h2 : matchHex 0 c = some 1 ↔ c ∈ b!"ABCDEF" := by
    clear hd h1
    revert c
    apply forall_byte
    decide +kernel
  have h3 : matchHex 0 c = some (-1) ↔ c ∈ b!"abcdef" := by
    clear hd h1 h2
    revert c
    apply forall_byte
    decide +kernel
  unfold Upper Lower
  rw [← isDigit_iff, ← h1, ← h2, ← h3]
  rcases hd with h | h | h | h <;> simp [h]

theorem hexRun_iff (u : Bytes) (k : Nat) : k ≤ hexRun 0 u ↔ k ≤ u.length ∧ Code (u.take k) := by
  induction u generalizing k with
  | nil => simp [hexRun]; rintro rfl; simp [Code]
  | cons c t ih =>
    cases k with
    | zero => simp [Code]
    | succ k =>
      have hu := hexRun_dir 1 Upper matchHex_upper t k
      have hl := hexRun_dir (-1) Lower matchHex_lower t k
      have e : ∀ w, Code w ↔ ((∀ c ∈ w, Upper c) ∨ ∀ c ∈ w, Lower c) := fun w => Iff.rfl
      have := ih k
      rw [e] at *
      rw [hexRun]
      rcases matchHex_first c with h | h | h | h <;> rw [h.1] <;> simp [h.2] <;> simp_all

theorem numericEscape_spec (s : Bytes) :
    (matchNumericEscape s = 0 ∧ (startsWith s b!"\\+" = true → ¬ 4 ≤ hexRun 0 (s.drop 2))) ∨
    (startsWith s b!"\\+" = true ∧ matchNumericEscape s = 10 ∧ 8 ≤ hexRun 0 (s.drop 2)) ∨
    (startsWith s b!"\\+" = true ∧ matchNumericEscape s = 6 ∧ 4 ≤ hexRun 0 (s.drop 2) ∧ ¬ 8 ≤ hexRun 0 (s.drop 2)) := by
  have htake : ∀ j, hexRun 0 ((s.drop 2).take j) = min j (hexRun 0 (s.drop 2)) := by
    intro j
    apply Nat.le_antisymm
    · have h := (hexRun_iff ((s.drop 2).take j) _).1 (Nat.le_refl _)
      have h2 := (hexRun_iff (s.drop 2) (hexRun 0 ((s.drop 2).take j))).2
      rw [List.take_take] at h
      have : hexRun 0 ((s.drop 2).take j) ≤ j := by have := h.1; rw [List.length_take] at this; omega
      rw [Nat.min_eq_left this] at h
      have := h2 ⟨by have := h.1; rw [List.length_take] at this; omega, h.2⟩
      omega
    · refine (hexRun_iff _ _).2 ?_
      have h := (hexRun_iff (s.drop 2) (min j (hexRun 0 (s.drop 2)))).1 (by omega)
      rw [List.take_take, Nat.min_eq_left (a := min j _) (by omega), List.length_take]
      exact ⟨by have := h.1; omega, h.2⟩
  have hlen : hexRun 0 (s.drop 2) ≤ (s.drop 2).length := ((hexRun_iff (s.drop 2) _).1 (Nat.le_refl _)).1
  unfold matchNumericEscape
  rw [htake, htake]
  rw [List.length_drop] at hlen
  by_cases hs : startsWith s b!"\\+" = true
  · simp only [hs]
    have := (startsWith_facts hs _ rfl).1
    simp at this
    simp
    grind
  · simp [hs]

theorem getLast_take {s : Bytes} {n : Nat} (h0 : 0 < n) (hn : n ≤ s.length) : (s.take n).getLast? = s[n - 1]? := by
  rw [List.getLast?_eq_getElem?, List.length_take, Nat.min_eq_left hn, List.getElem?_take_of_lt (by omega)]

theorem isCharacterName_iff (c : UInt8) : isCharacterName c = true ↔
    (0x41 ≤ c.toNat ∧ c.toNat ≤ 0x5A) ∨ DecDigit c ∨ c ∈ b!" -" := by
  rw [← isDigit_iff]
  revert c
  apply forall_byte
  decide +kernel

/-- What `match_escape` finds. -/
def EscapeFound (s : Bytes) (e : EscapeResult) : Prop :=
  0 < e.length ∧ e.length ≤ s.length ∧ ∃ z, s[e.length - 1]? = some z ∧
    ((¬ InLine z ∧ e.reserved = false ∧ ∃ c t, s = c!"\\" :: c :: t ∧ ¬ InLine c ∧
        (e.length = 2 ∨ e.length = 3 ∧ ∃ d u, t = d :: u ∧ ¬ InLine d)) ∨
      (InLine z ∧ (e.reserved = true → BadEscape s e.length) ∧ (e.reserved = false → Spec.Cowel.Escape s e.length)))

theorem code_inLine {w : Bytes} (h : Code w) {c : UInt8} (hc : c ∈ w) : InLine c := by
  have : ∀ c : UInt8, (isDigit c = true ∨ c ∈ b!"ABCDEFabcdef") → c ≠ 0x0A ∧ c ≠ 0x0D := by
    apply forall_byte
    decide +kernel
  apply this
  rcases h with h | h <;> rcases h c hc with h | h
  · exact Or.inl ((isDigit_iff c).2 h)
  · simp at h ⊢; grind
  · exact Or.inl ((isDigit_iff c).2 h)
  · simp at h ⊢; grind

theorem nameEscape_facts (t : Bytes) : EscapeFound (c!"\\" :: c!"'" :: t) (matchNameEscape (c!"\\" :: c!"'" :: t)) := by
  have hP : ∀ c : UInt8, (c = c!"'" || c = 0x0D || c = 0x0A) = false ↔ (c ≠ c!"'" ∧ InLine c) := by
    intro c
    unfold InLine
    simp
    grind
  unfold matchNameEscape
  rcases find_if_longest (c!"\\" :: c!"'" :: t) _ _ hP 2 (by simp) with ⟨j, c, hj, h2, hl, hc, hpc, hL⟩ | ⟨hj, hL⟩
  · rw [hj]
    simp only
    obtain ⟨k, rfl⟩ : ∃ k, j = k + 2 := ⟨j - 2, by omega⟩
    simp at hl
    have hk : t[k]? = some c := by simpa using hc
    have hq : ¬ InLine c ∨ c = c!"'" := by
      have := hP c
      rw [hpc] at this
      simp at this
      grind
    split
    · rename_i hn
      refine ⟨by simp, by simp, c!"'", by simp, Or.inr ⟨by decide, fun _ => .openName (k := k) (by simp)
        (by simpa using hL) ?_, by simp⟩⟩
      simpa using hn
    · rename_i hn
      have hcq : c = c!"'" := by
        rw [hc] at hn
        simpa using hn
      subst hcq
      have ht : t = t.take k ++ c!"'" :: t.drop (k + 1) := by
        obtain ⟨hlt, e⟩ := List.getElem?_eq_some_iff.1 hk
        rw [← e, ← List.drop_eq_getElem_cons hlt, List.take_append_drop]
      have hw : ∀ x ∈ t.take k, x ≠ c!"'" ∧ InLine x := by simpa using hL.1
      have hlen : (t.take k).length = k := by simp; omega
      have hlast : (c!"\\" :: c!"'" :: t)[k + 3 - 1]? = some c!"'" := by simpa using hk
      have hs : c!"\\" :: c!"'" :: t = b!"\\'" ++ t.take k ++ b!"'" ++ t.drop (k + 1) := by
        simpa using ht
      split
      · rename_i h0
        obtain rfl : k = 0 := by omega
        refine ⟨by simp, by simp; omega, c!"'", hlast, Or.inr ⟨by decide, fun _ => ?_, by simp⟩⟩
        exact .name hs hw (by simp) fun h => h.nonempty (by simp)
      · have e : ((c!"\\" :: c!"'" :: t).drop 2).take (k + 2 - 2) = t.take k := by simp
        rw [e]
        split
        · rename_i h0 hb
          refine ⟨by simp, by simp; omega, c!"'", hlast, Or.inr ⟨by decide, fun _ => ?_, by simp⟩⟩
          refine .name hs hw (by rw [hlen]) fun h => ?_
          simp only [Bool.or_eq_true, decide_eq_true_eq] at hb
          rcases hb with (hb | hb) | hb
          · exact h.head hb
          · exact h.last hb
          · simp only [Bool.not_eq_true', List.all_eq_false] at hb
            obtain ⟨x, hx, hx'⟩ := hb
            exact hx' ((isCharacterName_iff x).2 (h.chars x hx))
        · rename_i h0 hb
          refine ⟨by simp, by simp; omega, c!"'", hlast, Or.inr ⟨by decide, by simp, fun _ => ?_⟩⟩
          simp only [Bool.or_eq_true, decide_eq_true_eq, not_or, Bool.not_eq_true', Bool.not_eq_false,
            List.all_eq_true] at hb
          refine .name hs ⟨?_, hb.1.1, hb.1.2, fun x hx => (isCharacterName_iff x).1 (hb.2 x hx)⟩ (by rw [hlen])
          intro e
          have := congrArg List.length e
          rw [hlen] at this
          simp at this
          omega
  · rw [hj]
    simp only
    refine ⟨by simp, by simp, c!"'", by simp, Or.inr ⟨by decide, fun _ => .openName (k := t.length) (by simp)
      (by simpa using hL) ?_, by simp⟩⟩
    simp

theorem matchEscape_facts (s : Bytes) :
    ((matchEscape s).length = 0 ∧ (s[0]? = some c!"\\" → ∃ c, s[1]? = some c ∧ (Start c ∨ c ∈ b!":*( "))) ∨
    (s[0]? = some c!"\\" ∧ EscapeFound s (matchEscape s)) := by
  match s with
  | [] => simp [matchEscape]
  | a :: s =>
    by_cases ha : a ≠ c!"\\"
    · left
      simp [matchEscape, ha]
    simp only [ne_eq, Classical.not_not] at ha
    subst ha
    match s with
    | [] =>
      right
      exact ⟨rfl, by simp [matchEscape], by simp [matchEscape], c!"\\", by simp [matchEscape],
        Or.inr ⟨by decide, fun _ => .alone rfl (by simp [matchEscape]), by simp [matchEscape]⟩⟩
    | c :: t =>
      simp only [matchEscape, List.getElem?_cons_zero, ne_eq, not_true, if_false, List.getElem?_cons_succ,
        true_and, forall_const, Option.some.injEq, exists_eq_left']
      by_cases hc : isEscapeable c = true
      · right
        rw [if_pos hc]
        by_cases hp : c = c!"+"
        · subst hp
          rw [if_pos rfl]
          have hs : startsWith (c!"\\" :: c!"+" :: t) b!"\\+" = true := by simp
          rcases numericEscape_spec (c!"\\" :: c!"+" :: t) with h | h | h
          · rw [if_neg (by simp [h.1])]
            refine ⟨by simp, by simp, c!"+", by simp, Or.inr ⟨by decide, fun _ => .code (by simp) ?_, by simp⟩⟩
            rw [ge_iff_le, ← hexRun_iff]
            exact h.2 hs
          · rw [if_pos (by simp [h.2.1]), h.2.1]
            have hx := (hexRun_iff _ _).1 h.2.2
            simp at hx
            have hmem : t[7] ∈ t.take 8 := List.mem_take_iff_getElem.2 ⟨7, by omega, rfl⟩
            exact ⟨by simp, by simp; omega, t[7], by simp, Or.inr ⟨code_inLine hx.2 hmem, by simp,
              fun _ => .code8 (w := t.take 8) (t := t.drop 8) (by simp) (by simp; omega) hx.2 rfl⟩⟩
          · rw [if_pos (by simp [h.2.1]), h.2.1]
            have hx := (hexRun_iff _ _).1 h.2.2.1
            have hy := h.2.2.2
            rw [hexRun_iff] at hy
            simp only [List.drop_succ_cons, List.drop_zero] at hx hy
            have hmem : t[3] ∈ t.take 4 := List.mem_take_iff_getElem.2 ⟨3, by omega, rfl⟩
            exact ⟨by simp, by simp; omega, t[3], by simp, Or.inr ⟨code_inLine hx.2 hmem, by simp,
              fun _ => .code4 (w := t.take 4) (t := t.drop 4) (by simp) (by simp; omega) hx.2 rfl hy⟩⟩
        · rw [if_neg hp]
          by_cases hq : c = c!"'"
          · subst hq
            rw [if_pos rfl]
            exact nameEscape_facts t
          · rw [if_neg hq]
            rw [isEscapeable_iff] at hc
            simp [hp, hq] at hc
            by_cases hcr : startsWith (c!"\\" :: c :: t) b!"\\\r\n" = true
            · rw [if_pos hcr]
              match t with
              | [] => simp at hcr
              | d :: u =>
                simp at hcr
                obtain ⟨rfl, rfl⟩ := hcr
                exact ⟨by simp, by simp, 0x0A, by simp, Or.inl ⟨by decide, rfl, 0x0D, _, rfl, by decide,
                  Or.inr ⟨rfl, _, _, rfl, by decide⟩⟩⟩
            · rw [if_neg hcr]
              refine ⟨by simp, by simp, c, by simp, ?_⟩
              by_cases hn : InLine c
              · refine Or.inr ⟨hn, by simp, fun _ => .plain ?_⟩
                unfold InLine at hn
                simp
                grind
              · exact Or.inl ⟨hn, rfl, c, t, rfl, hn, Or.inl rfl⟩
      · rw [if_neg hc]
        by_cases hu : c < 0x80
        · rw [if_neg (by simpa using hu)]
          by_cases hr : isReservedEscapable c = true
          · rw [if_pos hr]
            right
            rw [isReserved_iff] at hr
            refine ⟨by simp, by simp, c, by simp, Or.inr ⟨?_, fun _ => .reserved (c := c) (by simp) hr.1 hr.2.1 hr.2.2, by simp⟩⟩
            have := hr.2.2
            unfold InLine
            simp at this
            grind
          · rw [if_neg hr]
            left
            refine ⟨rfl, ?_⟩
            rw [isReserved_iff] at hr
            rw [isEscapeable_iff] at hc
            have : c.toNat < 0x80 := by simpa [UInt8.lt_iff_toNat_lt] using hu
            simp [this] at hr hc ⊢
            grind
        · rw [if_pos (by simpa using hu)]
          right
          obtain ⟨p, rest, e, hl, hfc⟩ := firstChar_decode (s := c :: t) (by simp)
          have hb : 0x80 ≤ c.toNat := by
            simp only [UInt8.lt_iff_toNat_lt] at hu
            have : (0x80 : UInt8).toNat = 0x80 := rfl
            omega
          have hd := decode_facts (c :: t) (by simp)
          simp only [List.drop_succ_cons, List.drop_zero]
          have hp : p[0]? = some c := by
            have := congrArg (·[0]?) e
            simp only [List.getElem?_cons_zero] at this
            rw [List.getElem?_append_left (by omega)] at this
            exact this.symm
          have hz : ∀ z : UInt8, 0x80 ≤ z.toNat → InLine z := by
            intro z hz
            constructor <;> rintro rfl <;> simp at hz
          have hbad : BadEscape (c!"\\" :: c :: t) ((decodeOrReplacement (c :: t)).2 + 1) := by
            refine .unicode (c := _) (p := p) (rest := rest) (by simpa using e) hfc ?_ (by rw [hl]; omega)
            intro b hb'
            rw [hp] at hb'
            cases hb'
            exact hb
          refine ⟨by simp, by simp at hd ⊢; omega, ?_⟩
          simp only [Nat.add_sub_cancel]
          generalize hk : (decodeOrReplacement (c :: t)).2 = k at *
          obtain ⟨m, rfl⟩ : ∃ m, k = m + 1 := ⟨k - 1, by omega⟩
          rw [List.getElem?_cons_succ]
          cases m with
          | zero => exact ⟨c, rfl, Or.inr ⟨hz c hb, fun _ => hbad, by simp⟩⟩
          | succ m =>
            obtain ⟨z, h1, h2⟩ := Xml.decode_tail (c :: t) (m + 1) (by omega) (by omega)
            refine ⟨z, h1, Or.inr ⟨hz z ?_, fun _ => hbad, by simp⟩⟩
            clear h1
            revert h2
            revert z
            apply forall_byte
            decide +kernel

/-! ## Symbols -/

/-- The check that `memberToken` finds the longest symbol. -/
def tokenCheck (s : Bytes) : Bool :=
  match memberToken s with
  | some (w, ty) => (w, ty) ∈ symbols && startsWith s w &&
      symbols.all fun v => v.1.length ≤ w.length || !startsWith s v.1
  | none => symbols.all fun v => !startsWith s v.1

theorem symbols_short : ∀ v ∈ symbols, 1 ≤ v.1.length ∧ v.1.length ≤ 2 := by decide +kernel

theorem startsWith_short (c a : UInt8) (t v : Bytes) (h : v.length ≤ 2) :
    startsWith (c :: a :: t) v = startsWith [c, a] v := by
  match v with
  | [] => simp
  | [x] => simp
  | [x, y] => simp
  | _ :: _ :: _ :: _ => simp at h

theorem tokenCheck_congr {s s' : Bytes} (hm : memberToken s = memberToken s')
    (hs : ∀ v ∈ symbols, startsWith s v.1 = startsWith s' v.1) : tokenCheck s = tokenCheck s' := by
  unfold tokenCheck
  rw [hm]
  cases memberToken s' with
  | none =>
    rw [Bool.eq_iff_iff]
    simp only [List.all_eq_true]
    exact forall₂_congr fun v hv => by rw [hs v hv]
  | some x =>
    rw [Bool.eq_iff_iff]
    simp only [List.all_eq_true, Bool.and_eq_true, decide_eq_true_eq]
    exact and_congr (and_congr_right fun h => by rw [hs x h]) (forall₂_congr fun v hv => by rw [hs v hv])

theorem tokenCheck_true (s : Bytes) : tokenCheck s = true := by
  have h1 : ∀ c : UInt8, tokenCheck [c] = true := by
    apply forall_byte
    decide +kernel
  match s with
  | [] => decide +kernel
  | [c] => exact h1 c
  | c :: a :: t =>
    rw [tokenCheck_congr (s' := [c, a]) (by simp [memberToken, fixedToken])
      fun v hv => startsWith_short _ _ _ _ (symbols_short v hv).2]
    by_cases hc : c ∈ b!"=|&!<>"
    · simp only [List.mem_cons, List.not_mem_nil, or_false] at hc
      rcases hc with rfl | rfl | rfl | rfl | rfl | rfl <;> (revert a; apply forall_byte; decide +kernel)
    · rw [tokenCheck_congr (s' := [c]), h1]
      · simp only [List.mem_cons, List.not_mem_nil, or_false, not_or] at hc
        simp [memberToken, fixedToken, hc]
      · intro v hv
        have : ∀ v ∈ symbols, v.1.length = 1 ∨ ∃ x ∈ b!"=|&!<>", v.1.head? = some x := by decide +kernel
        have hl := symbols_short v hv
        have hx := this v hv
        obtain ⟨v, ty⟩ := v
        match v with
        | [] => simp at hl
        | [x] => simp
        | [x, y] =>
          simp at hx
          simp
          simp at hc
          grind
        | _ :: _ :: _ :: _ => simp at hl

theorem memberToken_facts (s : Bytes) :
    (∃ w ty, memberToken s = some (w, ty) ∧ (w, ty) ∈ symbols ∧ s.take w.length = w ∧ 0 < w.length ∧
      w.length ≤ s.length ∧ LongestIn (symbols.map Prod.fst) s w.length) ∨
    (memberToken s = none ∧ ∀ w ∈ symbols, ¬ OccursAt w.1 s 0) := by
  have key := tokenCheck_true s
  unfold tokenCheck at key
  cases hm : memberToken s with
  | some x =>
    obtain ⟨w, ty⟩ := x
    rw [hm] at key
    simp only [Bool.and_eq_true, decide_eq_true_eq, List.all_eq_true] at key
    obtain ⟨⟨h2, h3⟩, h4⟩ := key
    have h4 : ∀ v ∈ symbols.map Prod.fst, w.length < v.length → startsWith s v = false := by
      intro v hv hl
      obtain ⟨x, hx, rfl⟩ := List.mem_map.1 hv
      have := h4 x hx
      simp at this
      rcases this with h | h
      · omega
      · exact h
    left
    obtain ⟨h5, h6⟩ := startsWith_facts h3 _ rfl
    refine ⟨w, ty, rfl, h2, h6, ?_, h5, longestIn_of (List.mem_map.2 ⟨_, h2, rfl⟩) h3 h4⟩
    have : ∀ x ∈ symbols, 0 < x.1.length := by decide +kernel
    exact this _ h2
  | none =>
    rw [hm] at key
    right
    refine ⟨rfl, fun w hw => ?_⟩
    simp only [List.all_eq_true] at key
    rw [occursAt_zero]
    simpa using key w hw

/-! ## Numbers -/

theorem reservedRun_facts (s : Bytes) : Numeric s (reservedRun s) ∧ reservedRun s ≤ s.length := by
  have hA : ∀ c : UInt8, (isAlnum c || c = c!".") = true ↔ (Letter c ∨ DecDigit c ∨ c = c!".") := by
    intro c
    simp [isAlnum, isAlpha_iff, isDigit_iff, or_assoc]
  fun_induction reservedRun s with
  | case1 => exact ⟨.done (by simp), by simp⟩
  | case2 c h => exact ⟨.char ((hA c).1 h) (by simp) (.done (by simp)), by simp⟩
  | case3 c h => exact ⟨.done (by simpa only [← hA, List.getElem?_cons_zero, Option.some.injEq, forall_eq'] using h), by simp⟩
  | case4 c d t h ih =>
    simp at h
    exact ⟨.sign (by simpa using h.1) (by simpa using h.2) ih.1, by simp; exact ih.2⟩
  | case5 c d t h h' ih =>
    refine ⟨.char ((hA c).1 h') ?_ ih.1, by simp at *; omega⟩
    simp at h
    simp
    grind
  | case6 c d t h h' =>
    exact ⟨.done (by simpa only [← hA, List.getElem?_cons_zero, Option.some.injEq, forall_eq'] using h'), by simp⟩

theorem matchReservedNumber_facts (s : Bytes) :
    Numeric s (matchReservedNumber s) ∧ matchReservedNumber s ≤ s.length := by
  unfold matchReservedNumber
  split
  · exact ⟨.done (by simp), by simp⟩
  · rename_i c t
    split
    · rename_i hc
      subst hc
      have := reservedRun_facts t
      exact ⟨.char (by simp) (by simp) this.1, by simp; exact this.2⟩
    · exact reservedRun_facts _

theorem reserved_zero {s : Bytes} (h : matchReservedNumber s = 0) :
    ∀ c, s[0]? = some c → ¬ (Letter c ∨ DecDigit c ∨ c = c!".") := by
  have := (matchReservedNumber_facts s).1
  rw [h] at this
  generalize hn : 0 = n at this
  cases this with
  | sign => omega
  | char => omega
  | done h => exact h

theorem digits_prefix {b : Nat} {w t : Bytes} (hw : ∀ c ∈ w, isDigitBase c b = true)
    (ht : ∀ c, t[0]? = some c → isDigitBase c b = false) : matchDigits (w ++ t) b = w.length := by
  unfold matchDigits
  rw [Ascii.length_if_start _ _ 0 (by omega), List.drop_zero, List.takeWhile_append_of_pos hw]
  cases t with
  | nil => simp
  | cons c t => simp [ht c rfl]

theorem isDigitBase_ten (c : UInt8) : isDigitBase c 10 = isDigit c := by
  revert c
  apply forall_byte
  decide +kernel

theorem isDigitBase_of_val {c : UInt8} {b v : Nat} (hb : b = 2 ∨ b = 8 ∨ b = 16) (h : digitVal c = some v)
    (hv : v < b) : isDigitBase c b = true := by
  have : ((digitVal c).all fun v => !decide (v < b) || isDigitBase c b) = true := by
    clear h hv
    rcases hb with rfl | rfl | rfl <;> (revert c; apply forall_byte; decide +kernel)
  rw [h] at this
  simpa [hv] using this

theorem number_complete {w : Bytes} (h : Number w) : (matchCommonNumber w numberOptions).length = w.length ∧
    (matchCommonNumber w numberOptions).erroneous = false := by
  cases h with
  | @prefixed p b d h d0 hd =>
    have hb : b = 2 ∨ b = 8 ∨ b = 16 := by
      simp at h
      grind
    have hm : matchDigits d b = d.length := by
      have := digits_prefix (w := d) (t := []) (b := b)
        (fun c hc => by obtain ⟨v, h1, h2⟩ := hd c hc; exact isDigitBase_of_val hb h1 h2) (by simp)
      simpa using this
    have hl := List.length_pos_iff.2 d0
    have hsep : ∀ s, matchSeparatedDigits s b 0 = ⟨matchDigits s b, false⟩ := fun s => by
      simp [matchSeparatedDigits]
    have hp : p ++ d ≠ [] ∧ numSign numberOptions (p ++ d) = 0 ∧
        numPrefix numberOptions (p ++ d) = (2, b, false) ∧ p.length = 2 := by
      simp only [List.mem_cons, Prod.mk.injEq, List.not_mem_nil, or_false] at h
      rcases h with ⟨rfl, rfl⟩ | ⟨rfl, rfl⟩ | ⟨rfl, rfl⟩ <;>
        simp [numSign, numPrefix, numberOptions]
    obtain ⟨h1, h2, h3, h4⟩ := hp
    have hdr : (p ++ d).drop 2 = d := List.drop_left' h4
    rw [matchCommonNumber, if_neg h1]
    simp only [h2, h3, List.drop_zero, Nat.zero_add, hdr, show numberOptions.digitSeparator = 0 from rfl, hsep, hm,
      numFraction, Bool.false_and, Bool.false_eq_true, if_false, List.length_append, h4, Nat.add_zero, Nat.lt_irrefl]
    rw [if_neg (by omega)]
    simp [show numberOptions.nonemptyInteger = false from rfl]
    omega
  | @decimal i f e i0 hi hf he =>
    have hD : ∀ {c}, DecDigit c → isDigitBase c 10 = true := fun {c} h => by
      rw [isDigitBase_ten]; exact (isDigit_iff c).2 h
    have hN : ∀ c : UInt8, c ∈ b!".eE" → isDigitBase c 10 = false := by
      apply forall_byte
      decide +kernel
    have heH : ∀ c, e[0]? = some c → c ∈ b!"eE" := by
      rcases he with rfl | ⟨x, w, rfl, hx, _, _⟩
      · simp
      · simp only [numerals, List.mem_cons, List.not_mem_nil, or_false] at hx
        rcases hx with rfl | rfl | rfl | rfl | rfl | rfl <;> simp
    have hfH : ∀ c, (f ++ e)[0]? = some c → c ∈ b!".eE" := by
      rcases hf with rfl | ⟨w, rfl, _⟩
      · intro c hc
        have := heH c (by simpa using hc)
        simp at this ⊢
        grind
      · simp
    have hsep : ∀ s, matchSeparatedDigits s 10 0 = ⟨matchDigits s 10, false⟩ := fun s => by
      simp [matchSeparatedDigits]
    have hi1 : matchDigits (i ++ (f ++ e)) 10 = i.length :=
      digits_prefix (fun c hc => hD (hi c hc)) fun c hc => hN c (hfH c hc)
    have hfirst : ∀ c, (i ++ (f ++ e))[0]? = some c → DecDigit c ∨ c ∈ b!".eE" := by
      intro c hc
      cases i with
      | nil => exact Or.inr (hfH c (by simpa using hc))
      | cons a i =>
        simp at hc
        subst hc
        exact Or.inl (hi _ (by simp))
    have hsecond : ∀ c, (i ++ (f ++ e))[0]? = some c!"0" → (i ++ (f ++ e))[1]? = some c → DecDigit c ∨ c ∈ b!".eE" := by
      intro c h0 hc
      match i with
      | [] =>
        have := hfH _ (by simpa using h0)
        simp at this
      | [a] => exact Or.inr (hfH c (by simpa using hc))
      | a :: b :: i =>
        simp at hc
        subst hc
        exact Or.inl (hi _ (by simp))
    generalize hs : i ++ (f ++ e) = s at *
    have hne : s ≠ [] := by
      intro h
      rw [h] at hs
      simp at hs
      simp [hs] at i0
    have hsign : numSign numberOptions s = 0 := by
      match s with
      | [] => simp at hne
      | c :: t =>
        have := hfirst c rfl
        have hc : c ≠ c!"-" := by
          rintro rfl
          simp [DecDigit] at this
        simp [numSign, numberOptions, eq_comm (b := c), hc]
    have hpre : numPrefix numberOptions s = (0, 10, true) := by
      have : ∀ x ∈ b!"box", startsWith s [c!"0", x] = false := by
        intro x hx
        match s with
        | [] => simp
        | [c] => simp
        | c :: d :: t =>
          by_cases h0 : c = c!"0"
          · subst h0
            have := hsecond d rfl rfl
            have hd : d ∉ b!"box" := by
              intro h
              simp at h
              rcases h with rfl | rfl | rfl <;> simp [DecDigit] at this
            simp
            rintro rfl
            exact hd hx
          · simp
            grind
      simp at this
      simp [numPrefix, numberOptions, this]
    rw [List.append_assoc, hs]
    rw [matchCommonNumber, if_neg hne]
    simp only [hsign, hpre, List.drop_zero, Nat.zero_add, show numberOptions.digitSeparator = 0 from rfl, hsep, hi1]
    have hdr : s.drop i.length = f ++ e := by rw [← hs, List.drop_left]
    have hfrac : numFraction numberOptions 10 0 i.length true (s.drop i.length) = some (if f = [] then 0 else 1, f.length - 1, false) := by
      rw [hdr]
      rcases hf with rfl | ⟨w, rfl, hw⟩
      · have : startsWith e b!"." = false := by
          cases e with
          | nil => simp
          | cons c e =>
            have := heH c rfl
            simp at this
            rcases this with rfl | rfl <;> simp
        simp [numFraction, this]
      · have hm : matchDigits (w ++ e) 10 = w.length := digits_prefix (fun c hc => hD (hw c hc))
          fun c hc => hN c (by have := heH c hc; simp at this ⊢; grind)
        simp [numFraction, hsep, hm, show numberOptions.digitSeparator = 0 from rfl, show numberOptions.nonemptyFraction = false from rfl]
        intro h0
        subst h0
        simp at i0
        cases w with
        | nil => simp at i0
        | cons a w => simpa using (isDigit_iff a).2 (hw a (by simp))
    rw [hfrac]
    have hl2 : (if f = [] then 0 else 1) + (f.length - 1) = f.length := by
      cases f <;> simp
      omega
    have hlen : s.length = i.length + f.length + e.length := by rw [← hs]; simp; omega
    simp only
    rw [Nat.add_assoc, hl2]
    have h0 : ¬ (i.length + f.length = 0) := by
      intro h
      rcases i0 with h' | h'
      · exact h' (List.length_eq_zero_iff.1 (by omega))
      · omega
    rw [if_neg h0]
    have hdr2 : s.drop (i.length + f.length) = e := by
      rw [← List.drop_drop, hdr, List.drop_left]
    have hexp : (if true && decide (i.length + f.length < s.length) then numExponent numberOptions (s.drop (i.length + f.length))
        else (0, 0, false)) = (e.length - (numExponent numberOptions e).2.1, (numExponent numberOptions e).2.1, false) ∧
        (numExponent numberOptions e).2.1 ≤ e.length := by
      rw [hdr2]
      rcases he with rfl | ⟨x, w, rfl, hx, w0, hw⟩
      · rw [if_neg (by simp at hlen; simp; omega)]
        simp [numExponent, numberOptions]
      · have hx0 : 0 < (x ++ w).length := by
          have := List.length_pos_iff.2 w0
          simp
          omega
        rw [if_pos (by simp; simp at hlen hx0; omega)]
        have hm : matchDigits w 10 = w.length := by
          simpa using digits_prefix (w := w) (t := []) (fun c hc => hD (hw c hc)) (by simp)
        have hsg : startsWith w b!"+" = false ∧ startsWith w b!"-" = false := by
          cases w with
          | nil => simp at w0
          | cons a w =>
            have := hw a (by simp)
            unfold DecDigit at this
            constructor <;> simp <;> rintro rfl <;> simp at this
        have hl0 : w.length ≠ 0 := by simpa using w0
        simp only [numerals, List.mem_cons, List.not_mem_nil, or_false] at hx
        rcases hx with rfl | rfl | rfl | rfl | rfl | rfl <;>
          simp [numExponent, numberOptions, hm, hsg, hl0] <;> omega
    rw [hexp.1]
    have := hexp.2
    simp only [show numberOptions.nonemptyInteger = false from rfl]
    rw [if_neg (by omega)]
    simp
    omega

theorem fits : Fits numberOptions numerals where
  decor := by decide +kernel
  exps := by decide +kernel
  noEmpty := by decide +kernel
  suffixes := by simp [numberOptions]
  matchSuffix := by simp [numberOptions]
  base := by decide +kernel
  sep := rfl

/-! ## Text -/

theorem textScan_facts (k : Kind) (level : Int) (s : Bytes) : (textScan k level s).1 ≤ s.length ∧
    (∀ c ∈ s.take (textScan k level s).1, c ≠ c!"\\") ∧
    ((textScan k level s).1 = s.length ∨ s[(textScan k level s).1]? = some c!"\\" ∨
      (k = .block ∧ s[(textScan k level s).1]? = some c!"}") ∨
      ((k = .memberName ∨ k = .string) ∧ s[(textScan k level s).1]? = some c!"\"")) ∧
    (k = .memberName ∨ k = .string → ∀ c ∈ s.take (textScan k level s).1, c ≠ c!"\"") ∧
    (k ≠ .block → (textScan k level s).2 = level) := by
  induction s generalizing level with
  | nil => simp [textScan]
  | cons c t ih =>
    have h0 := ih level
    have h1 := ih (level - 1)
    have h2 := ih (level + 1)
    unfold textScan
    cases k <;> simp at h0 h1 h2 ⊢ <;> repeat' split
    all_goals simp_all

/-! ## Names with quotation marks -/

/-- `Skip s k`: the loop of `match_quoted_member_name` moves over `k` bytes. -/
inductive Skip (s : Bytes) : Nat → Prop where
  | char {c} (h : s[0]? = some c) (h1 : c ≠ c!"\"") (h2 : c ≠ c!"\\") : Skip s 1
  | escape (h : s[0]? = some c!"\\") (e : (matchEscape s).length ≠ 0) : Skip s (matchEscape s).length
  | line (h : s[0]? = some c!"\\") (e : (matchEscape s).length = 0) (l : matchLineComment s ≠ 0) :
      Skip s (matchLineComment s)
  | block (h : s[0]? = some c!"\\") (e : (matchEscape s).length = 0) (l : matchLineComment s = 0)
      (b : (matchBlockComment s).length ≠ 0) : Skip s (matchBlockComment s).length

/-- `NameEnds s n`: the first `n` bytes of `s` are the rest of a name and its closing quotation mark. -/
inductive NameEnds : Bytes → Nat → Prop where
  | quote {s} (h : s[0]? = some c!"\"") : NameEnds s 1
  | skip {s k n} (h : Skip s k) (r : NameEnds (s.drop k) n) : NameEnds s (k + n)

theorem quotedLoop_nameEnds {f : Nat} {s : Bytes} {n : Nat} (h : quotedLoop f s = some n) : NameEnds s n := by
  induction f generalizing s n with
  | zero => simp [quotedLoop] at h
  | succ f ih =>
    cases s with
    | nil => simp [quotedLoop] at h
    | cons c t =>
      rw [quotedLoop] at h
      repeat' split at h
      · cases h
        exact .quote (by simp [*])
      · simp only [Option.map_eq_some_iff] at h
        obtain ⟨m, h1, rfl⟩ := h
        exact .skip (.escape (by simp [*]) ‹_›) (ih h1)
      · simp only [Option.map_eq_some_iff] at h
        obtain ⟨m, h1, rfl⟩ := h
        exact .skip (.line (by simp [*]) (by simpa using ‹¬ (matchEscape _).length ≠ 0›) ‹_›) (ih h1)
      · simp only [Option.map_eq_some_iff] at h
        obtain ⟨m, h1, rfl⟩ := h
        exact .skip (.block (by simp [*]) (by simpa using ‹¬ (matchEscape _).length ≠ 0›)
          (by simpa using ‹¬ matchLineComment _ ≠ 0›) ‹_›) (ih h1)
      · cases h
      · simp only [Option.map_eq_some_iff] at h
        obtain ⟨m, h1, rfl⟩ := h
        exact .skip (.char rfl ‹_› ‹_›) (ih h1)

theorem matchQuotedName_facts {s : Bytes} (h : matchQuotedName s ≠ 0) : ∃ t, s = c!"\"" :: t ∧
    NameEnds t (matchQuotedName s - 1) := by
  unfold matchQuotedName at *
  match s with
  | [] => simp at h
  | c :: t =>
    simp only at *
    split at h
    · rename_i hc
      rw [if_pos hc]
      split at h
      · rename_i n hn
        exact ⟨t, by rw [hc], by simpa using quotedLoop_nameEnds hn⟩
      · simp at h
    · simp at h

theorem NameEnds.pos {s : Bytes} {n : Nat} (h : NameEnds s n) : 0 < n := by
  induction h with
  | quote => omega
  | skip _ _ ih => omega

/-- A name goes on after a character that is neither a quotation mark nor a backslash. -/
theorem NameEnds.char {c : UInt8} {t : Bytes} {n : Nat} (h : NameEnds (c :: t) n) (h1 : c ≠ c!"\"")
    (h2 : c ≠ c!"\\") : 0 < n ∧ NameEnds t (n - 1) := by
  cases h with
  | quote h => simp at h; exact absurd h h1
  | skip h r =>
    cases h with
    | char => exact ⟨by omega, by simpa using r⟩
    | escape h => simp at h; exact absurd h h2
    | line h => simp at h; exact absurd h h2
    | block h => simp at h; exact absurd h h2

theorem NameEnds.plain {s : Bytes} {n k : Nat} (h : NameEnds s n) (hk : k ≤ s.length)
    (h1 : ∀ c ∈ s.take k, c ≠ c!"\"" ∧ c ≠ c!"\\") : k < n ∧ NameEnds (s.drop k) (n - k) := by
  induction k generalizing s n with
  | zero => exact ⟨h.pos, by simpa using h⟩
  | succ k ih =>
    match s with
    | [] => simp at hk
    | c :: t =>
      have hc := h1 c (by simp)
      obtain ⟨h2, h3⟩ := h.char hc.1 hc.2
      obtain ⟨h4, h5⟩ := ih h3 (by simpa using hk) fun x hx => h1 x (by simp [hx])
      exact ⟨by omega, by rw [show n - (k + 1) = n - 1 - k by omega]; simpa using h5⟩

/-- Conversely, a name may be preceded by such characters. -/
theorem NameEnds.cons {c : UInt8} {t : Bytes} {n : Nat} (h : NameEnds t n) (h1 : c ≠ c!"\"")
    (h2 : c ≠ c!"\\") : NameEnds (c :: t) (1 + n) := .skip (.char rfl h1 h2) (by simpa using h)

theorem NameEnds.last {s : Bytes} {n : Nat} (h : NameEnds s n) : s[n - 1]? = some c!"\"" := by
  induction h with
  | quote h => exact h
  | @skip s k n h r ih =>
    have := r.pos
    rw [List.getElem?_drop] at ih
    rw [show k + n - 1 = k + (n - 1) by omega]
    exact ih

end Cowel

end Ulight
