import Verif.Hl.ProgramIn
import Verif.Props.Lang.Cpp
import Verif.Spec.Elements.Cpp

/-!
# C58 for C and C++: matching
-/

namespace Ulight.Cpp

open Spec Spec.Cpp Utf8

/-! ## Comments -/

theorem splice_unique {s : Bytes} {j k : Nat} (hj : Splice s j) (hk : Splice s k) : j = k := by
  obtain ⟨ws, r, rfl, h1, rfl⟩ := hj
  obtain ⟨vs, q, e, h2, rfl⟩ := hk
  simp at e
  suffices ws = vs by rw [this]
  induction ws generalizing vs with
  | nil =>
    cases vs with
    | nil => rfl
    | cons v vs =>
      simp at e
      exact absurd e.1.symm (h2 v (by simp)).2
  | cons w ws ih =>
    cases vs with
    | nil =>
      simp at e
      exact absurd e.1 (h1 w (by simp)).2
    | cons v vs =>
      simp at e
      rw [e.1, ih (fun c hc => h1 c (by simp [hc])) vs (fun c hc => h2 c (by simp [hc])) e.2]

theorem line_unique {s : Bytes} {m n : Nat} (hm : Line s m) (hn : Line s n) : m = n := by
  have hsp : ∀ {s : Bytes} {k : Nat}, Splice s k → ¬ (s = [] ∨ s.take 1 = b!"\n" ∨ s.take 2 = b!"\r\n") := by
    rintro s k ⟨ws, r, rfl, _⟩ h
    simp at h
  have hch : ∀ {c : UInt8} {s : Bytes}, c ≠ 0x0A → (c :: s).take 2 ≠ b!"\r\n" →
      ¬ (c :: s = [] ∨ (c :: s).take 1 = b!"\n" ∨ (c :: s).take 2 = b!"\r\n") := by
    rintro c s h h' (e | e | e)
    · cases e
    · simp at e
      exact h e
    · exact h' e
  induction hm generalizing n with
  | done h =>
    cases hn with
    | done => rfl
    | splice h' => exact absurd h (hsp h')
    | char h1 h2 => exact absurd h (hch h1 h2)
  | splice h _ ih =>
    cases hn with
    | done h' => exact absurd h' (hsp h)
    | splice h' t' =>
      obtain rfl := splice_unique h h'
      rw [ih t']
    | char _ _ h' => exact absurd h (h' _)
  | char h1 h2 h3 _ ih =>
    cases hn with
    | done h' => exact absurd h' (hch h1 h2)
    | splice h' => exact absurd h' (h3 _)
    | char _ _ _ t' => rw [ih t']

theorem matchLineComment_at {t b : Bytes} (h : Line (t ++ b) t.length) :
    matchLineComment (b!"//" ++ t ++ b) = t.length + 2 := by
  rcases lineComment_facts (b!"//" ++ t ++ b) with ⟨_, h2⟩ | ⟨h1, _, _, h2⟩
  · simp at h2
  · have h3 : Line (t ++ b) (matchLineComment (b!"//" ++ t ++ b) - 2) := h2
    have := line_unique h3 h
    omega

/-! ## Identifiers -/

theorem matchIdentifier_none {b : Bytes} (h : ∀ m, ¬ Ident b m) : matchIdentifier b = 0 := by
  rcases matchIdentifier_facts b with ⟨_, ⟨h1, _⟩ | ⟨_, h2⟩⟩
  · exact h1
  · exact absurd h2 (h _)

/-! ## Escapes -/

theorem escape_append {w r : Bytes} (h : EscapeText IsEscape w) (h' : EscapeText Accepted (w ++ r)) :
    EscapeText IsEscape (w ++ r) := by
  obtain ⟨c, t, rfl, hr⟩ : ∃ c t, w = c!"\\" :: c :: t ∧ EscapeRest c t := by
    have h := id h
    rw [← List.take_length (l := w)] at h
    match w, h with
    | [], h => cases h
    | [a], h => cases h with | octal h => have := h.1; simp at this
    | a :: c :: u, h =>
      obtain rfl : a = c!"\\" := by
        generalize hx : (a :: c :: u).take (a :: c :: u).length = x at h
        simp at hx
        subst hx
        cases h <;> rfl
      obtain ⟨j, hj, hr⟩ := escape_inv h
      refine ⟨c, u, rfl, ?_⟩
      simp at hj
      rw [← hj] at hr
      simpa using hr
  generalize hx : (c!"\\" :: c :: t) ++ r = x at h' ⊢
  cases h' with
  | simple h => exact .simple h
  | octal h => exact .octal h
  | named h h' => exact .named h h'
  | conditional h h1 h2 h3 => exact .conditional h h1 h2 h3
  | @long c' k u hk ha =>
    simp at hx
    obtain ⟨rfl, rfl⟩ := hx
    refine .long hk ?_
    have hc : c ∉ simple ∧ ¬ Octal c ∧ c ≠ c!"N" ∧ ¬ c ∉ b!"NouUx" := by
      simp at hk
      rcases hk with ⟨rfl, _⟩ | ⟨rfl, _⟩ | ⟨rfl, _⟩ | ⟨rfl, _⟩ | ⟨rfl, _⟩ | ⟨rfl, _⟩ <;> simp [simple, Octal]
    rcases hr with ⟨h, _⟩ | ⟨h, _⟩ | ⟨k', hk', hi⟩ | ⟨h, _⟩ | ⟨_, _, _, h, _⟩
    · exact absurd h hc.1
    · exact absurd h hc.2.1
    · have hh : ∀ {k : EscapeKind} {t r : Bytes} (A : UInt8 → Prop), ¬ A c!"{" → (1 ≤ t.length ∧ ∀ c ∈ t, A c) →
          ¬ ∃ ds, ds ≠ [] ∧ (∀ c ∈ ds, Hex c) ∧ (t ++ r = b!"{" ++ ds ∨ t ++ r = b!"{" ++ ds ++ b!"}") := by
        rintro k t r A hA ⟨h1, h2⟩ ⟨ds, _, _, h⟩
        cases t with
        | nil => simp at h1
        | cons a t =>
          simp at h
          have : a = c!"{" := by rcases h with h | h <;> exact h.1
          exact hA (this ▸ h2 a (by simp))
      simp at hk
      simp [longEscapes] at hk'
      by_cases hkk : k' = k
      · subst hkk
        exact isEscape_append hi ha
      · have hhex : ¬ Hex c!"{" := by simp [Hex]
        rcases hk with ⟨rfl, rfl⟩ | ⟨rfl, rfl⟩ | ⟨rfl, rfl⟩ | ⟨rfl, rfl⟩ | ⟨rfl, rfl⟩ | ⟨rfl, rfl⟩ <;> simp at hk' hkk
        · exact ha
        · rcases hk' with rfl | rfl
          · exact absurd ha (hh (k := .hex_4) Hex hhex ⟨by have := hi.1; omega, hi.2⟩)
          · exact absurd rfl hkk
        · exact absurd hk' hkk
        · exact ha
        · rcases hk' with rfl | rfl
          · exact absurd ha (hh (k := .hex_4) Hex hhex hi)
          · exact absurd rfl hkk
        · exact absurd hk' hkk
    · exact absurd h hc.2.2.1
    · exact absurd h hc.2.2.2

theorem matchEscape_at {w r : Bytes} (h : Escaped w r) : matchEscape (w ++ r) = ⟨w.length, false, false⟩ := by
  obtain ⟨h1, h2⟩ := h
  have hx : EscapeText IsEscape ((w ++ r).take w.length) := by simpa using h1
  have h0 : (w ++ r)[0]? = some c!"\\" := by cases h1 <;> rfl
  have hcase := escape_facts' h0
  have hw : ∃ c u, w = c!"\\" :: c :: u ∧ ¬ Space c := by
    cases h1 with
    | @simple c h =>
      refine ⟨c, [], rfl, ?_⟩
      simp [simple] at h
      rcases h with rfl | rfl | rfl | rfl | rfl | rfl | rfl | rfl | rfl | rfl | rfl <;> simp [Space]
    | @octal t h =>
      cases t with
      | nil => have := h.1; simp at this
      | cons c t =>
        refine ⟨c, t, rfl, ?_⟩
        have := h.2.2 c (by simp)
        intro hs
        simp [Space] at hs
        rcases hs with rfl | rfl | rfl | rfl | rfl | rfl <;> simp [Octal] at this
    | @long c k t h h' =>
      refine ⟨c, t, rfl, ?_⟩
      simp at h
      rcases h with ⟨rfl, _⟩ | ⟨rfl, _⟩ | ⟨rfl, _⟩ | ⟨rfl, _⟩ | ⟨rfl, _⟩ | ⟨rfl, _⟩ <;> simp [Space]
    | named h h' => exact ⟨_, _, rfl, by simp [Space]⟩
    | @conditional c h h1 h2 h3 =>
      refine ⟨c, [], rfl, ?_⟩
      intro hs
      simp [Space] at hs
      rcases hs with rfl | rfl | rfl | rfl | rfl | rfl <;> simp at h
  obtain ⟨c, u, rfl, hc⟩ := hw
  generalize matchEscape ((c!"\\" :: c :: u) ++ r) = e at hcase
  cases hcase with
  | alone h => simp at h
  | splice h => exact absurd h (not_splice_of hc _)
  | blank h => exact absurd h (not_blank_of hc)
  | says h hn =>
    obtain ⟨n, nl, err⟩ := e
    simp only at hn
    subst hn
    cases err with
    | true => exact absurd hx (h.bad rfl _)
    | false =>
      obtain ⟨h3, h4⟩ := h.good rfl
      have hle := h.le
      simp only at h3 h4 hle
      rcases Nat.lt_trichotomy (c!"\\" :: c :: u : Bytes).length n with hl | hl | hl
      · refine absurd ?_ (h2 n hl hle)
        have e : (c!"\\" :: c :: u ++ r).take n = (c!"\\" :: c :: u) ++ r.take (n - (c!"\\" :: c :: u : Bytes).length) := by
          rw [List.take_append, List.take_of_length_le (by omega)]
        rw [e] at h3 ⊢
        exact escape_append h1 h3
      · rw [hl]
      · exact absurd hx (h4 _ hl (by simp))

end Ulight.Cpp
