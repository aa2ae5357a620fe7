import Verif.Hl.Match
import Verif.Props.Utf8
import Verif.Props.Text
import Verif.Lang.CppCommon
import Verif.Spec.Lang.CppId

/-!
# Matching whole characters
-/

namespace Ulight

open Spec Utf8

theorem charsWhile_spec (p : Nat → Bool) (P : Nat → Prop) (hP : ∀ c, p c = true ↔ P c) (fuel : Nat)
    (s : Bytes) (hf : s.length ≤ fuel) :
    charsWhile p fuel s ≤ s.length ∧ LongestChars P s (charsWhile p fuel s) := by
  induction fuel generalizing s with
  | zero =>
    have : s = [] := List.length_eq_zero_iff.1 (by omega)
    subst this
    exact ⟨by simp [charsWhile], [], [], .nil, rfl, by simp, by simp⟩
  | succ fuel ih =>
    unfold charsWhile
    split
    · rename_i h
      subst h
      exact ⟨by simp, [], [], .nil, rfl, by simp, by simp⟩
    · rename_i hs
      obtain ⟨q, rest, he, hn, hfc⟩ := firstChar_decode hs
      have hl := decodeOrReplacement_length hs
      dsimp only
      split
      · rename_i hp
        have hd : s.drop (decodeOrReplacement s).2 = rest := by rw [hn]; conv => lhs; rw [he]; simp
        rw [hd]
        obtain ⟨h1, a, b, h2, h3, h4, h5⟩ := ih rest (by
          have := congrArg List.length he
          simp at this
          omega)
        have hlen := congrArg List.length he
        simp at hlen
        refine ⟨by omega, ((decodeOrReplacement s).1, q) :: a, b, ?_, ?_, ?_, h5⟩
        · conv => arg 1; rw [he]
          exact .cons hfc h2
        · simp [h3, hn]
        · simp only [List.mem_cons]
          rintro c (rfl | hc)
          · exact (hP _).1 hp
          · exact h4 c hc
      · rename_i hp
        obtain ⟨cs, hcs, _⟩ := C14_chars_exist_unique rest
        refine ⟨by simp, [], ((decodeOrReplacement s).1, q) :: cs, ?_, rfl, by simp, ?_⟩
        · conv => arg 1; rw [he]
          exact .cons hfc hcs
        · intro c hc
          simp at hc
          subst hc
          rwa [← hP]

theorem lengthWhile_spec (p : Nat → Bool) (P : Nat → Prop) (hP : ∀ c, p c = true ↔ P c) (s : Bytes) :
    lengthWhile p s ≤ s.length ∧ LongestChars P s (lengthWhile p s) :=
  charsWhile_spec p P hP _ s (Nat.le_refl _)

/-- The first character of a text does not satisfy `P`. -/
def NoFirst (P : Nat → Prop) (s : Bytes) : Prop := ∀ c p rest, s = p ++ rest → FirstChar c p rest → ¬ P c

theorem lengthHeadTail_spec (start cont : Nat → Bool) (S C : Nat → Prop)
    (hS : ∀ c, start c = true ↔ S c) (hC : ∀ c, cont c = true ↔ C c) (s : Bytes) :
    lengthHeadTail start cont s ≤ s.length ∧
    (lengthHeadTail start cont s = 0 ∧ (s ≠ [] → NoFirst S s) ∨
     0 < lengthHeadTail start cont s ∧ Identifier S C s (lengthHeadTail start cont s)) := by
  unfold lengthHeadTail
  split
  · rename_i h
    exact ⟨by simp, Or.inl ⟨rfl, fun h' => absurd h h'⟩⟩
  · rename_i hs
    obtain ⟨q, rest, he, hn, hfc⟩ := firstChar_decode hs
    have hl := decodeOrReplacement_length hs
    have hlen := congrArg List.length he
    simp at hlen
    dsimp only
    split
    · rename_i hp
      have hd : s.drop (decodeOrReplacement s).2 = rest := by rw [hn]; conv => lhs; rw [he]; simp
      rw [hd]
      have := lengthWhile_spec cont C hC rest
      refine ⟨by omega, Or.inr ⟨by omega, _, q, rest, he, hfc, (hS _).1 hp, by omega, ?_⟩⟩
      rw [show (decodeOrReplacement s).2 + lengthWhile cont rest - q.length = lengthWhile cont rest by omega]
      exact this.2
    · rename_i hp
      refine ⟨by simp, Or.inl ⟨rfl, fun _ c p r h1 h2 h3 => ?_⟩⟩
      obtain ⟨rfl, _, _⟩ := firstChar_unique hfc h2 (by rw [← he, h1])
      exact hp ((hS _).2 h3)

/-- A decoded character, as the error tokens of highlighters use it. -/
theorem firstChar_of_decode {s : Bytes} (h : s ≠ []) :
    ∃ c p rest, s = p ++ rest ∧ FirstChar c p rest ∧ (decodeOrReplacement s).2 = p.length ∧
      s.take (decodeOrReplacement s).2 = p := by
  obtain ⟨q, rest, he, hn, hfc⟩ := firstChar_decode h
  refine ⟨_, q, rest, he, hfc, hn, ?_⟩
  rw [hn]
  conv => lhs; rw [he]
  simp

theorem decode_facts (s : Bytes) (h : 0 < s.length) :
    0 < (decodeOrReplacement s).2 ∧ (decodeOrReplacement s).2 ≤ s.length := by
  have := decodeOrReplacement_length (s := s) (by rintro rfl; simp at h)
  omega

grind_pattern decode_facts => (decodeOrReplacement s).2

/-! ## Identifiers -/

theorem cppStart_iff (c : Nat) : Cpp.isIdStart c = true ↔ CppId.Start c := by
  unfold Cpp.isIdStart CppId.Start
  split
  · rename_i h
    have e : (UInt8.ofNat c).toNat = c := by simp; omega
    have := (C17_ascii (UInt8.ofNat c) (by omega)).1
    rw [e] at this
    simp [← this, or_comm]
  · simp

theorem cppContinue_iff (c : Nat) : Cpp.isIdContinue c = true ↔ CppId.Continue c := by
  unfold Cpp.isIdContinue CppId.Continue
  split
  · rename_i h
    have e : (UInt8.ofNat c).toNat = c := by simp; omega
    have := (C17_ascii (UInt8.ofNat c) (by omega)).2
    rw [e] at this
    rw [← this]
    constructor
    · exact Or.inr
    · rintro (rfl | h)
      · decide +kernel
      · exact h
  · simp

theorem Cpp.matchIdentifier_facts (s : Bytes) :
    Cpp.matchIdentifier s ≤ s.length ∧
    (Cpp.matchIdentifier s = 0 ∧ (s ≠ [] → NoFirst CppId.Start s) ∨
     0 < Cpp.matchIdentifier s ∧ Identifier CppId.Start CppId.Continue s (Cpp.matchIdentifier s)) :=
  lengthHeadTail_spec _ _ _ _ cppStart_iff cppContinue_iff s

theorem wp_dassert_elim {σ : Type} {env : HEnv} {s : HS σ} {c : Bool} {Q : Unit → HS σ → Prop}
    (h : wp (HM.dassert c) Q env s) : Q () s := by
  obtain ⟨a, s', h1, h2⟩ := h
  unfold HM.dassert at h1
  split at h1
  · cases h1; exact h2
  · cases h1

/-- An assertion that is only checked in debug builds. -/
theorem wp_dassert_debug {σ : Type} {env : HEnv} {s : HS σ} {c : Bool} {Q : Unit → HS σ → Prop}
    (hc : env.debug = true → c = true) (h : Q () s) : wp (HM.dassert c) Q env s := by
  refine ⟨(), s, ?_, h⟩
  cases hd : env.debug <;> simp_all [HM.dassert]

/-- Highlighting a block comment. -/
theorem wp_blockComment {σ : Type} {R : Rules} {env : HEnv} {s : HS σ} {Q : Unit → HS σ → Prop}
    (hP : ∀ t, R.tok (b!"/*" ++ t) 2 .comment_delim) (hS : ∀ t, R.tok (b!"*/" ++ t) 2 .comment_delim)
    (hC : ∀ t n, UpTo b!"*/" t n → R.tok t n .comment)
    (g : Good R env s) (h0 : ¬ (Cpp.matchBlockComment s.rem).length = 0)
    (k : ∀ s', Good R env s' → s'.idx + s'.rem.length = env.src.length →
      s'.rem = s.rem.drop (Cpp.matchBlockComment s.rem).length →
      s'.idx = s.idx + (Cpp.matchBlockComment s.rem).length → s'.ext = s.ext → Q () s') :
    wp (Cpp.highlightBlockComment (Cpp.matchBlockComment s.rem)) Q env s := by
  have e : Cpp.matchBlockComment s.rem = matchEnclosed s.rem b!"/*" b!"*/" := rfl
  have h := wp_enclosed (R := R) (pre := b!"/*") (suf := b!"*/") (content := .comment)
    (delim := .comment_delim) (by simp) (by simp) (by simp) (by simp) hP hS hC g h0 k
  rw [← e] at h
  have h4 : (Cpp.matchBlockComment s.rem).terminated = true → 4 ≤ (Cpp.matchBlockComment s.rem).length := by
    unfold Cpp.matchBlockComment
    split
    · simp
    · split <;> simp <;> omega
  generalize Cpp.matchBlockComment s.rem = b at h h4
  unfold HM.highlightEnclosed at h
  simp only [wp_bind] at h
  have h := wp_dassert_elim (wp_dassert_elim (wp_dassert_elim h))
  unfold Cpp.highlightBlockComment
  simp only [wp_bind]
  rw [wp_index] at h ⊢
  refine wp_mono h ?_
  intro _ s1 h
  cases ht : b.terminated with
  | true =>
    have := h4 ht
    simp only [ht, if_true, Cpp.emitWhen] at h ⊢
    simp only [wp_bind] at h
    rw [show s.idx + b.length - 2 = s.idx + 2 + (b.length - 2 - 2) by omega]
    exact h
  | false =>
    simp only [ht, Cpp.emitWhen, Bool.false_eq_true, if_false, Nat.sub_zero] at h ⊢
    simp only [wp_bind] at h
    simpa using h

theorem blockComment_facts (t : Bytes) : (Cpp.matchBlockComment t).length ≤ t.length ∧
    (startsWith t b!"/*" = true → 2 ≤ (Cpp.matchBlockComment t).length) := by
  have e : Cpp.matchBlockComment t = matchEnclosed t b!"/*" b!"*/" := rfl
  rw [e]
  rcases matchEnclosed_spec t b!"/*" b!"*/" with ⟨h1, h⟩ | ⟨body, rest, hs, hb, h⟩ | ⟨body, hs, hb, h⟩
  · simp [h, h1]
  · have hl := congrArg List.length hs
    simp at hl
    simp [h]; omega
  · have hl := congrArg List.length hs
    simp at hl
    simp [h]; omega

theorem firstOffset_takeWhile (p : Nat → Bool) (cs : List (Nat × Bytes)) :
    (firstOffset (fun c => !p c) cs).getD (cs.flatMap Prod.snd).length =
      ((cs.takeWhile fun c => p c.1).flatMap Prod.snd).length := by
  induction cs with
  | nil => rfl
  | cons x cs ih =>
    obtain ⟨c, u⟩ := x
    simp only [firstOffset]
    by_cases hp : p c = true
    case neg => simp [hp]
    case pos =>
      simp only [Bool.not_true, Bool.false_eq_true, if_false, List.takeWhile_cons, hp, if_true, List.flatMap_cons,
        List.length_append, ← ih]
      cases firstOffset (fun c => !p c) cs <;> simp

/-- `utf8::length_if` -/
theorem length_if_chars (p : Nat → Bool) (P : Nat → Prop) (hP : ∀ c, p c = true ↔ P c) (s : Bytes) :
    ∃ n, Utf8.length_if s p = .ok n ∧ n ≤ s.length ∧ LongestChars P s n := by
  obtain ⟨cs, h, _⟩ := C14_chars_exist_unique s
  have hs := chars_flatten h
  have e := (C15_find_if s cs h p).2.2.1
  have hsplit := List.takeWhile_append_dropWhile (p := fun c : Nat × Bytes => p c.1) (l := cs)
  refine ⟨_, e, ?_, cs.takeWhile fun c => p c.1, cs.dropWhile fun c => p c.1, by rwa [hsplit], ?_, ?_, ?_⟩
  · cases hk : firstOffset (fun c => !p c) cs with
    | none => simp
    | some k =>
      have := firstOffset_le hk
      rwa [← hs] at this
  · rw [hs]
    exact (firstOffset_takeWhile p cs).symm
  · intro c hc
    rw [← hP]
    have := List.all_takeWhile (p := fun c : Nat × Bytes => p c.1) (l := cs)
    exact List.all_eq_true.1 this c hc
  · intro c hc
    have := List.head?_dropWhile_not (fun c : Nat × Bytes => p c.1) cs
    rw [hc] at this
    simp at this
    rw [← hP]
    simp [this]
theorem chars_drop {s : Bytes} {a b : List (Nat × Bytes)} (h : Chars s (a ++ b)) :
    Chars (s.drop (a.flatMap Prod.snd).length) b := by
  induction a generalizing s with
  | nil => exact h
  | cons x a ih =>
    rw [List.cons_append] at h
    cases h with
    | cons hc h =>
      rw [List.flatMap_cons, List.length_append, ← List.drop_drop, List.drop_left]
      exact ih h

theorem LongestChars.noFirst {P : Nat → Prop} {s : Bytes} {n : Nat} (h : LongestChars P s n) :
    NoFirst P (s.drop n) := by
  obtain ⟨a, b, h, rfl, _, hb⟩ := h
  have h := chars_drop h
  intro c p rest e hc
  rw [e] at h
  obtain ⟨cs, hcs, _⟩ := C14_chars_exist_unique rest
  obtain ⟨_, _, hu⟩ := C14_chars_exist_unique (p ++ rest)
  have := (hu _ h).trans (hu _ (.cons hc hcs)).symm
  exact hb (c, p) (by simp [this])

theorem firstChar_ascii {a : UInt8} (h : a.toNat < 0x80) (t : Bytes) : FirstChar a.toNat [a] t := by
  refine Or.inl ⟨Or.inl (by omega), ?_⟩
  simp [utf8, h]

theorem noFirst_ascii {P : Nat → Prop} {a : UInt8} {t : Bytes} (h : a.toNat < 0x80) :
    NoFirst P (a :: t) ↔ ¬ P a.toNat := by
  constructor
  · intro hn
    exact hn a.toNat [a] t rfl (firstChar_ascii h t)
  · intro hp c p rest e hc
    obtain ⟨rfl, rfl, rfl⟩ := firstChar_unique (firstChar_ascii h t) hc (by simpa using e)
    exact hp

end Ulight
