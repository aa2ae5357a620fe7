import Verif.Lang.Markdown
import Verif.Spec.Lang.Markdown
import Verif.Props.Lang.Html

/-!
# What the matching functions of the Markdown highlighter find
-/

namespace Ulight.Markdown

open Spec Spec.Markdown

/-! ## Runs -/

theorem len_split (p : UInt8 → Bool) (s : Bytes) : ∃ a b, s = a ++ b ∧ a.length = Ascii.length_if s p ∧
    (∀ c ∈ a, p c = true) ∧ ∀ c, b.head? = some c → p c = false := by
  refine ⟨s.takeWhile p, s.dropWhile p, by simp, ?_, ?_, ?_⟩
  · rw [Ascii.length_if_start s p 0 (by omega)]; simp
  · intro c hc
    exact List.all_eq_true.1 (List.all_takeWhile (p := p) (l := s)) c hc
  · intro c hc
    induction s with
    | nil => simp at hc
    | cons x s ih =>
      rw [List.dropWhile_cons] at hc
      split at hc
      · exact ih hc
      · rename_i hx; simp at hc; subst hc; simpa using hx

theorem len_of {p : UInt8 → Bool} {s a b : Bytes} (h : s = a ++ b) (ha : ∀ c ∈ a, p c = true)
    (hb : ∀ c, b.head? = some c → p c = false) : Ascii.length_if s p = a.length := by
  rw [Ascii.length_if_start s p 0 (by omega), h]
  simp only [List.drop_zero, Nat.zero_add]
  congr 1
  rw [List.takeWhile_append_of_pos ha]
  cases b with
  | nil => simp
  | cons x b => simp [hb x rfl]

theorem run_split (c : UInt8) (s : Bytes) : ∃ t, s = List.replicate (runOf c s) c ++ t ∧ t.head? ≠ some c := by
  obtain ⟨a, b, h, hl, ha, hb⟩ := len_split (· == c) s
  refine ⟨b, ?_, fun e => by simpa using hb c e⟩
  have : a = List.replicate (runOf c s) c := by
    unfold runOf
    rw [← hl]
    exact List.eq_replicate_iff.2 ⟨rfl, by simpa using ha⟩
  rw [← this]
  exact h

theorem run_of {c : UInt8} {s t : Bytes} {n : Nat} (h : s = List.replicate n c ++ t) (ht : t.head? ≠ some c) :
    runOf c s = n := by
  unfold runOf
  rw [len_of h]
  · simp
  · intro x hx; simp [List.mem_replicate] at hx; simp [hx.2]
  · intro x hx
    simp only [beq_eq_false_iff_ne, ne_eq]
    rintro rfl
    exact ht hx

theorem run_le (c : UInt8) (s : Bytes) : runOf c s ≤ s.length := (length_if_le s _ 0 (by omega)).2

theorem take_run (c : UInt8) (s : Bytes) : s.take (runOf c s) = List.replicate (runOf c s) c := by
  obtain ⟨t, h, _⟩ := run_split c s
  generalize runOf c s = n at h
  rw [h]
  simp [List.take_left']

theorem run_take_le (c : UInt8) (s : Bytes) (k : Nat) : runOf c (s.take k) ≤ k ∧ runOf c (s.take k) ≤ s.length := by
  have := run_le c (s.take k)
  rw [List.length_take] at this
  omega

theorem take_run_take (c : UInt8) (s : Bytes) (k : Nat) :
    s.take (runOf c (s.take k)) = List.replicate (runOf c (s.take k)) c := by
  have h := take_run c (s.take k)
  have := run_take_le c s k
  rw [List.take_take, Nat.min_eq_left this.1] at h
  exact h

/-- If fewer than the permitted number of code units match, the next one does not. -/
theorem run_take_next (c : UInt8) (s : Bytes) (k : Nat) (h : runOf c (s.take k) < k) :
    s[runOf c (s.take k)]? ≠ some c := by
  obtain ⟨t, e, ht⟩ := run_split c (s.take k)
  generalize runOf c (s.take k) = n at *
  intro hc
  apply ht
  have : (s.take k)[n]? = some c := by rw [List.getElem?_take, if_pos h]; exact hc
  rw [e, List.getElem?_append_right (by simp)] at this
  simpa [List.head?_eq_getElem?] using this

theorem run_take_of {c : UInt8} {s t : Bytes} {n k : Nat} (h : s = List.replicate n c ++ t) (hk : n ≤ k)
    (ht : t.head? ≠ some c) : runOf c (s.take k) = n := by
  refine run_of (t := t.take (k - n)) ?_ ?_
  · rw [h, List.take_append]
    simp [hk]
  · cases t with
    | nil => simp
    | cons x t => cases hkn : k - n <;> simp_all

theorem lead_le (s : Bytes) : matchLeadSpaces s ≤ 3 ∧ matchLeadSpaces s ≤ s.length := run_take_le _ s 3

theorem take_lead (s : Bytes) : s.take (matchLeadSpaces s) = spaces (matchLeadSpaces s) := take_run_take _ s 3

theorem lead_of {s t : Bytes} {k : Nat} (h : s = spaces k ++ t) (hk : k ≤ 3) (ht : t.head? ≠ some c!" ") :
    matchLeadSpaces s = k := run_take_of h hk ht

/-! ## Ends of headings -/

theorem dropTrailing_spec (c : UInt8) (s : Bytes) : ∃ m, s = dropTrailing c s ++ List.replicate m c := by
  refine ⟨(s.reverse.takeWhile (· == c)).length, ?_⟩
  have h : s.reverse.takeWhile (· == c) = List.replicate (s.reverse.takeWhile (· == c)).length c := by
    refine List.eq_replicate_iff.2 ⟨rfl, ?_⟩
    intro x hx
    simpa using List.all_eq_true.1 (List.all_takeWhile (p := (· == c)) (l := s.reverse)) x hx
  have e : s.reverse = s.reverse.takeWhile (· == c) ++ s.reverse.dropWhile (· == c) := by simp
  have := congrArg List.reverse e
  rw [List.reverse_reverse, List.reverse_append] at this
  rw [h, List.reverse_replicate] at this
  exact this

theorem strip_spec (s : Bytes) : stripAtxTrailing s ≤ s.length ∧ ∃ i j k,
    s.drop (stripAtxTrailing s) = spaces i ++ List.replicate j c!"#" ++ spaces k := by
  unfold stripAtxTrailing
  obtain ⟨k, hk⟩ := dropTrailing_spec c!" " s
  simp only
  generalize ha : dropTrailing c!" " s = a at *
  obtain ⟨j, hj⟩ := dropTrailing_spec c!"#" a
  generalize hb : dropTrailing c!"#" a = b at *
  obtain ⟨i, hi⟩ := dropTrailing_spec c!" " b
  generalize hd : dropTrailing c!" " b = d at *
  have full : ∃ i j k', s.drop a.length = spaces i ++ List.replicate j c!"#" ++ spaces k' :=
    ⟨0, 0, k, by rw [hk]; simp [spaces]⟩
  have lens : a.length ≤ s.length ∧ d.length ≤ s.length := by
    rw [hk, hj, hi]; simp
  split
  · rename_i h
    subst h
    exact ⟨by omega, by simpa using full⟩
  · split
    · exact ⟨lens.1, full⟩
    · split
      · refine ⟨lens.2, i, j, k, ?_⟩
        rw [hk, hj, hi]
        simp [spaces]
      · exact ⟨lens.1, full⟩

/-! ## Code spans -/

abbrev ticks (n : Nat) : Bytes := List.replicate n c!"`"

theorem last_replicate {n : Nat} {c : UInt8} (h : 0 < n) (x : Bytes) :
    (x ++ List.replicate n c).getLast? = some c := by
  rw [List.getLast?_append]
  simp [List.getLast?_replicate]
  omega

/-- How a run of exactly `n` backticks relates to the first run. -/
theorem run_cases {x v' a b : Bytes} {m n : Nat} (hx : c!"`" ∉ x) (hm : 0 < m) (hv : v'.head? ≠ some c!"`")
    (hn : 0 < n) (ha : a.getLast? ≠ some c!"`") (hb : b.head? ≠ some c!"`")
    (e : x ++ ticks m ++ v' = a ++ ticks n ++ b) :
    (m = n ∧ a = x ∧ v' = b) ∨ ∃ a', a = x ++ ticks m ++ a' ∧ a'.getLast? ≠ some c!"`" ∧ v' = a' ++ ticks n ++ b := by
  rw [List.append_assoc, List.append_assoc] at e
  rcases List.append_eq_append_iff.1 e with ⟨y, h1, h2⟩ | ⟨y, h1, h2⟩
  · -- `a = x ++ y`
    rcases List.append_eq_append_iff.1 h2 with ⟨z, h3, h4⟩ | ⟨z, h3, h4⟩
    · right
      refine ⟨z, by rw [h1, h3]; simp, ?_, by rw [h4]; simp⟩
      intro hz
      apply ha
      rw [h1, h3]
      simp [List.getLast?_append, hz]
    · -- `ticks m = y ++ z`
      have hy : y = [] := by
        by_cases hy : y = []
        · exact hy
        · exfalso
          apply ha
          have h5 := (List.append_eq_replicate_iff.1 h3.symm).2.1
          have hpos : 0 < y.length := List.length_pos_iff.2 hy
          rw [h1, h5]
          exact last_replicate hpos x
      subst hy
      simp at h1 h3
      subst h1
      left
      rw [← h3] at h4
      have := run_of (c := c!"`") (n := m) (s := ticks n ++ b) h4 hv
      rw [run_of rfl hb] at this
      subst this
      exact ⟨rfl, rfl, (List.append_cancel_left h4).symm⟩
  · -- `x = a ++ y`
    cases y with
    | nil =>
      simp at h1 h2
      subst h1
      left
      have := run_of (c := c!"`") (n := m) (s := ticks n ++ b) h2 hv
      rw [run_of rfl hb] at this
      subst this
      exact ⟨rfl, rfl, (List.append_cancel_left h2).symm⟩
    | cons y0 y =>
      exfalso
      apply hx
      obtain ⟨n, rfl⟩ : ∃ k, n = k + 1 := ⟨n - 1, by omega⟩
      simp [List.replicate_succ] at h2
      rw [h1, ← h2.1]
      simp

/-- The search for the closing run. -/
theorem closingTicks_some {n : Nat} (hn : 0 < n) : ∀ (fuel k : Nat) (s : Bytes) (j : Nat),
    closingTicks n fuel k s = some j → ∃ v t, s = v ++ ticks n ++ t ∧ k + v.length = j ∧
      t.head? ≠ some c!"`" ∧ v.getLast? ≠ some c!"`" ∧
      ∀ a b, v = a ++ ticks n ++ b → a.getLast? = some c!"`" ∨ b.head? = some c!"`"
  | 0, _, _, _, h => by simp [closingTicks] at h
  | fuel + 1, k, s, j, h => by
    unfold closingTicks at h
    obtain ⟨x, t, hs, hl, hx, ht⟩ := len_split (· != c!"`") s
    simp only [← hl] at h
    rw [hs, List.drop_left] at h
    have hx' : c!"`" ∉ x := fun hh => by simpa using hx _ hh
    split at h
    · cases h
    · rename_i hne
      obtain ⟨u, hu, hu'⟩ := run_split c!"`" t
      have hm : 0 < runOf c!"`" t := by
        cases t with
        | nil => simp at hne
        | cons d t =>
          have := ht d rfl
          simp at this
          subst this
          cases hr : runOf c!"`" (c!"`" :: t) with
          | zero => rw [hr] at hu; simp at hu; rw [← hu] at hu'; simp at hu'
          | succ => omega
      generalize runOf c!"`" t = m at *
      split at h
      · rename_i hmn
        subst hmn
        cases h
        refine ⟨x, u, by rw [hs, hu]; simp, rfl, hu', ?_, ?_⟩
        · intro hh
          exact hx' (List.mem_of_getLast? hh)
        · intro a b hab
          exfalso
          apply hx'
          rw [hab]
          simp [List.mem_replicate]
          omega
      · rename_i hmn
        rw [hu, List.drop_left' (by simp)] at h
        obtain ⟨v, w, h1, h2, h3, h4, h5⟩ := closingTicks_some hn fuel _ _ _ h
        refine ⟨x ++ ticks m ++ v, w, by rw [hs, hu, h1]; simp, by simp; omega, h3, ?_, ?_⟩
        · intro hh
          cases hv : v.getLast? with
          | some d =>
            rw [List.getLast?_append, hv] at hh
            simp at hh
            rw [hh] at hv
            exact h4 hv
          | none =>
            rw [List.getLast?_eq_none_iff] at hv
            subst hv
            simp at h1
            rw [h1] at hu'
            obtain ⟨n, rfl⟩ : ∃ k, n = k + 1 := ⟨n - 1, by omega⟩
            simp [List.replicate_succ] at hu'
        · intro a b hab
          apply Classical.byContradiction
          intro hc
          rw [not_or] at hc
          have hv : v.head? ≠ some c!"`" := by
            cases v with
            | nil => simp
            | cons d v => rw [h1] at hu'; simpa using hu'
          rcases run_cases hx' hm hv hn hc.1 hc.2 hab with ⟨h6, _⟩ | ⟨a', h6, h7, h8⟩
          · exact hmn h6
          · rcases h5 a' b h8 with h9 | h9
            · exact h7 h9
            · exact hc.2 h9

theorem closingTicks_none {n : Nat} (hn : 0 < n) : ∀ (fuel k : Nat) (s : Bytes), s.length < fuel →
    closingTicks n fuel k s = none → ∀ a b, s = a ++ ticks n ++ b → a.getLast? = some c!"`" ∨ b.head? = some c!"`"
  | 0, _, _, hf, _ => by omega
  | fuel + 1, k, s, hf, h => by
    intro a b hab
    apply Classical.byContradiction
    intro hc
    rw [not_or] at hc
    unfold closingTicks at h
    obtain ⟨x, t, hs, hl, hx, ht⟩ := len_split (· != c!"`") s
    simp only [← hl] at h
    rw [hs, List.drop_left] at h
    have hx' : c!"`" ∉ x := fun hh => by simpa using hx _ hh
    split at h
    · rename_i ht0
      apply hx'
      rw [ht0] at hs
      simp at hs
      rw [← hs, hab]
      simp [List.mem_replicate]
      omega
    · rename_i hne
      obtain ⟨u, hu, hu'⟩ := run_split c!"`" t
      have hm : 0 < runOf c!"`" t := by
        cases t with
        | nil => simp at hne
        | cons d t =>
          have := ht d rfl
          simp at this
          subst this
          cases hr : runOf c!"`" (c!"`" :: t) with
          | zero => rw [hr] at hu; simp at hu; rw [← hu] at hu'; simp at hu'
          | succ => omega
      generalize runOf c!"`" t = m at *
      split at h
      · cases h
      · rename_i hmn
        rw [hu, List.drop_left' (by simp)] at h
        have e : x ++ ticks m ++ u = a ++ ticks n ++ b := by rw [← hab, hs, hu]; simp
        rcases run_cases hx' hm hu' hn hc.1 hc.2 e with ⟨h6, _⟩ | ⟨a', h6, h7, h8⟩
        · exact hmn h6
        · have hlen : u.length < fuel := by rw [hs, hu] at hf; simp at hf; omega
          rcases closingTicks_none hn fuel _ u hlen h a' b h8 with h9 | h9
          · exact h7 h9
          · exact hc.2 h9

theorem codeSpan_some {s : Bytes} {n k : Nat} (h : matchCodeSpan s = some (n, k)) (hs : OneLine s) :
    ∃ v t, s = ticks n ++ v ++ ticks n ++ t ∧ v.length = k ∧ Span n v t := by
  unfold matchCodeSpan at h
  simp only at h
  obtain ⟨u, hu, hu'⟩ := run_split c!"`" s
  split at h
  · cases h
  · rename_i hm
    simp only [Option.map_eq_some_iff, Prod.mk.injEq] at h
    obtain ⟨j, h, rfl, rfl⟩ := h
    have hpos : 0 < runOf c!"`" s := by omega
    generalize runOf c!"`" s = m at *
    rw [hu, List.drop_left' (by simp)] at h
    obtain ⟨v, t, h1, h2, h3, h4, h5⟩ := closingTicks_some hpos _ _ _ _ h
    refine ⟨v, t, by rw [hu, h1]; simp, by omega, hpos, ?_, ?_, h4, h3, h5, ?_⟩
    · rintro rfl
      rw [h1] at hu'
      obtain ⟨m, rfl⟩ : ∃ k, m = k + 1 := ⟨m - 1, by omega⟩
      simp [List.replicate_succ] at hu'
    · cases v with
      | nil => simp
      | cons d v => rw [h1] at hu'; simpa using hu'
    · intro c hc
      apply hs
      rw [hu, h1]
      simp [hc]

theorem codeSpan_none {s : Bytes} (h : matchCodeSpan s = none) {n : Nat} {v t : Bytes}
    (hs : s = ticks n ++ v ++ ticks n ++ t) : ¬ Span n v t := by
  intro hp
  unfold matchCodeSpan at h
  simp only at h
  have hv : (v ++ ticks n ++ t).head? ≠ some c!"`" := by
    have := hp.head
    have := hp.nonempty
    cases v with
    | nil => simp_all
    | cons d v => simpa using hp.head
  have hr : runOf c!"`" s = n := run_of (t := v ++ ticks n ++ t) (by rw [hs]; simp) hv
  rw [hr, if_neg (by have := hp.pos; omega)] at h
  simp only [Option.map_eq_none_iff] at h
  have hd : s.drop n = v ++ ticks n ++ t := by
    rw [hs, List.append_assoc, List.append_assoc, List.drop_left' (by simp)]; simp
  have hlen : (s.drop n).length < s.length := by
    have := hp.pos
    have h' : n ≤ s.length := by rw [hs]; simp
    rw [List.length_drop]; omega
  rw [hd] at h hlen
  rcases closingTicks_none hp.pos _ _ _ hlen h v t rfl with h1 | h1
  · exact hp.last h1
  · exact hp.next h1

/-! ## Autolinks -/

theorem isWhitespace_iff (c : UInt8) : isWhitespace c = true ↔ White c := by
  unfold isWhitespace White; simp

theorem isWhitespace_false (c : UInt8) : isWhitespace c = false ↔ ¬ White c := by
  rw [← isWhitespace_iff]; simp

theorem isSpecial_iff (c : UInt8) : isSpecial c = true ↔ Special c := by
  unfold isSpecial Special; simp

theorem isPunctuation_iff (c : UInt8) : isPunctuation c = true ↔ Punctuation c := by
  unfold isPunctuation Punctuation; simp

theorem isAlnum_iff (c : UInt8) : isAlnum c = true ↔ Alnum c := by
  unfold Alnum Letter DecDigit
  revert c; apply forall_byte; decide +kernel

theorem autolink_split {s : Bytes} {n : Nat} (h : matchAutolink s = n) (hn : n ≠ 0) :
    ∃ v t, s = b!"<" ++ v ++ b!">" ++ t ∧ v.length = n ∧ Autolink v := by
  unfold matchAutolink at h
  split at h
  · omega
  · rename_i h0
    rw [not_or] at h0
    cases s with
    | nil => simp at h0
    | cons c s =>
      have hc : c = c!"<" := by simpa using h0.2
      subst hc
      simp only [List.drop_succ_cons, List.drop_zero] at h
      obtain ⟨a, b, h1, h2, h3, h4⟩ := len_split (fun c => c != c!">" && c != c!"<" && !isWhitespace c) s
      rw [← h2] at h
      split at h
      · omega
      · rename_i h5
        split at h
        · rename_i h6
          subst h
          rw [h1, List.getElem?_append_right (by omega)] at h5
          cases b with
          | nil => simp at h5
          | cons d b =>
            have hd : d = c!">" := by simpa using h5
            subst hd
            rw [h1, List.take_left] at h6
            refine ⟨a, b, by rw [h1]; simp, rfl, ?_, ?_⟩
            · intro x hx
              have := h3 x hx
              simp at this
              rw [isWhitespace_false] at this
              simp [this]
            · obtain ⟨x, hx, hx'⟩ := List.any_eq_true.1 h6
              simp at hx'
              rcases hx' with rfl | rfl
              · exact Or.inl hx
              · exact Or.inr hx
        · omega

theorem autolink_none {s v t : Bytes} (h : matchAutolink s = 0) (hs : s = b!"<" ++ v ++ b!">" ++ t) : ¬ Autolink v := by
  intro hv
  have hne : v ≠ [] := by
    rintro rfl
    rcases hv.mark with h | h <;> simp at h
  unfold matchAutolink at h
  have hl : 0 < v.length := List.length_pos_iff.2 hne
  rw [if_neg (by rw [hs]; simp; omega)] at h
  have hd : s.drop 1 = v ++ (c!">" :: t) := by rw [hs]; simp
  simp only [hd] at h
  rw [len_of rfl] at h
  · rw [List.getElem?_append_right (by omega)] at h
    simp at h
    apply hne
    rcases hv.mark with h' | h'
    · exact h _ h' (Or.inl rfl)
    · exact h _ h' (Or.inr rfl)
  · intro c hc
    have := hv.chars c hc
    rw [← isWhitespace_false] at this
    simp at this
    simp [this]
  · simp

/-! ## References -/

theorem isHexDigit_iff (c : UInt8) : isHexDigit c = true ↔ c ∈ b!"0123456789abcdefABCDEF" := by
  revert c; apply forall_byte; decide +kernel

theorem isDigit_iff' (c : UInt8) : isDigit c = true ↔ DecDigit c := by
  unfold DecDigit
  revert c; apply forall_byte; decide +kernel

theorem referenceTail_spec (p : UInt8 → Bool) (hp : p c!";" = false) (s : Bytes) {n : Nat} :
    (n ≠ 0 ∧ referenceTail p s = n) ↔ ∃ v t, s = v ++ b!";" ++ t ∧ v ≠ [] ∧ (∀ c ∈ v, p c = true) ∧ n = v.length + 1 := by
  unfold referenceTail
  obtain ⟨a, b, h1, h2, h3, h4⟩ := len_split p s
  simp only [← h2]
  constructor
  · rintro ⟨hn, h⟩
    split at h
    · rename_i h5
      rw [h1, List.getElem?_append_right (by omega)] at h5
      cases b with
      | nil => simp at h5
      | cons d b =>
        have hd : d = c!";" := by simpa using h5.2
        subst hd
        exact ⟨a, b, by rw [h1]; simp, by rintro rfl; simp at h5, h3, h.symm⟩
    · omega
  · rintro ⟨v, t, h5, h6, h7, rfl⟩
    have := len_of (p := p) (s := s) (a := v) (b := c!";" :: t) (by rw [h5]; simp) h7 (by simp [hp])
    rw [this] at h2
    rw [h2, if_pos]
    · simp
    · refine ⟨by simpa using h6, ?_⟩
      rw [h5, List.append_assoc, List.getElem?_append_right (by omega)]
      simp

theorem plus_spec {k n m : Nat} (h : plus k n = m) (hm : m ≠ 0) : n ≠ 0 ∧ m = k + n := by
  unfold plus at h
  split at h <;> omega

theorem reference_some {s : Bytes} {n : Nat} (h : matchReference s = n) (hn : n ≠ 0) :
    n ≤ s.length ∧ Reference (s.take n) := by
  unfold matchReference at h
  split at h
  · rename_i c d t
    split at h
    · omega
    · rename_i hc
      simp at hc
      subst hc
      split at h
      · rename_i hd
        subst hd
        split at h
        · rename_i x t'
          split at h
          · rename_i hx
            obtain ⟨h1, rfl⟩ := plus_spec h hn
            obtain ⟨v, w, h2, h3, h4, h5⟩ := (referenceTail_spec isHexDigit (by decide) t').1 ⟨h1, rfl⟩
            rw [h5]
            refine ⟨by rw [h2]; simp; omega, ?_⟩
            have : (c!"&" :: c!"#" :: x :: t').take (3 + (v.length + 1)) = b!"&#" ++ x :: v ++ b!";" := by
              rw [h2, show 3 + (v.length + 1) = (c!"&" :: c!"#" :: x :: (v ++ b!";")).length by simp; omega]
              exact List.take_left (l₁ := c!"&" :: c!"#" :: x :: (v ++ b!";")) (l₂ := w)
            rw [this]
            exact .hex (by simpa using hx) h3 fun c hc => (isHexDigit_iff c).1 (h4 c hc)
          · obtain ⟨h1, rfl⟩ := plus_spec h hn
            generalize x :: t' = t at *
            obtain ⟨v, w, h2, h3, h4, h5⟩ := (referenceTail_spec isDigit (by decide) t).1 ⟨h1, rfl⟩
            rw [h5]
            refine ⟨by rw [h2]; simp; omega, ?_⟩
            have : (c!"&" :: c!"#" :: t).take (2 + (v.length + 1)) = b!"&#" ++ v ++ b!";" := by
              rw [h2, show 2 + (v.length + 1) = (c!"&" :: c!"#" :: (v ++ b!";")).length by simp; omega]
              exact List.take_left (l₁ := c!"&" :: c!"#" :: (v ++ b!";")) (l₂ := w)
            rw [this]
            exact .dec h3 fun c hc => (isDigit_iff' c).1 (h4 c hc)
        · omega
      · obtain ⟨h1, rfl⟩ := plus_spec h hn
        generalize d :: t = t at *
        obtain ⟨v, w, h2, h3, h4, h5⟩ := (referenceTail_spec isAlnum (by decide) t).1 ⟨h1, rfl⟩
        rw [h5]
        refine ⟨by rw [h2]; simp; omega, ?_⟩
        have : (c!"&" :: t).take (1 + (v.length + 1)) = b!"&" ++ v ++ b!";" := by
          rw [h2, show 1 + (v.length + 1) = (c!"&" :: (v ++ b!";")).length by simp; omega]
          exact List.take_left (l₁ := c!"&" :: (v ++ b!";")) (l₂ := w)
        rw [this]
        exact .name h3 fun c hc => (isAlnum_iff c).1 (h4 c hc)
  · omega

theorem referenceTail_pos {p : UInt8 → Bool} (hp : p c!";" = false) {s v t : Bytes} (h : s = v ++ b!";" ++ t)
    (hv : v ≠ []) (hc : ∀ c ∈ v, p c = true) : referenceTail p s = v.length + 1 :=
  ((referenceTail_spec p hp s).2 ⟨v, t, h, hv, hc, rfl⟩).2

theorem reference_none {s v t : Bytes} (h : matchReference s = 0) (hs : s = v ++ t) : ¬ Reference v := by
  intro hr
  cases hr with
  | @name v hv hc =>
    cases v with
    | nil => simp at hv
    | cons d v =>
      have hd : d ≠ c!"#" := by
        rintro rfl
        have := hc _ (List.mem_cons_self ..)
        rw [← isAlnum_iff] at this
        revert this; decide
      rw [hs] at h
      simp [matchReference, hd] at h
      rw [referenceTail_pos (v := d :: v) (t := t) (by decide) (by simp) (by simp)
        (fun c hc' => (isAlnum_iff c).2 (hc c hc'))] at h
      simp [plus] at h
  | @dec v hv hc =>
    cases v with
    | nil => simp at hv
    | cons d v =>
      have hd := (isDigit_iff' d).2 (hc _ (List.mem_cons_self ..))
      have hx : ¬ (d = c!"x" ∨ d = c!"X") := by rintro (rfl | rfl) <;> revert hd <;> decide
      rw [hs] at h
      simp [matchReference] at h
      rw [if_neg (by simpa using hx), referenceTail_pos (v := d :: v) (t := t) (by decide) (by simp) (by simp)
        (fun c hc' => (isDigit_iff' c).2 (hc c hc'))] at h
      simp [plus] at h
  | @hex x v hx hv hc =>
    rw [hs] at h
    simp [matchReference] at h
    rw [if_pos (by simpa using hx), referenceTail_pos (v := v) (t := t) (by decide) (by simp) hv
      (fun c hc' => (isHexDigit_iff c).2 (hc c hc'))] at h
    simp [plus] at h

/-! ## Links -/

theorem bracketClose_some : ∀ (s : Bytes) (d a : Nat), bracketClose (d + 1) s = some a →
    ∃ v t, s = v ++ c!"]" :: t ∧ v.length + 1 = a ∧ Brackets d v
  | [], d, a, h => by simp [bracketClose] at h
  | c :: s, d, a, h => by
    unfold bracketClose at h
    split at h
    · rename_i hc
      subst hc
      split at h
      · cases h
      · rename_i x s
        rw [Option.map_eq_some_iff] at h
        obtain ⟨b, h, rfl⟩ := h
        obtain ⟨v, t, h1, h2, h3⟩ := bracketClose_some s d b h
        exact ⟨c!"\\" :: x :: v, t, by rw [h1]; simp, by simp; omega, .escape h3⟩
    · rename_i hc1
      split at h
      · rename_i hc
        subst hc
        rw [Option.map_eq_some_iff] at h
        obtain ⟨b, h, rfl⟩ := h
        obtain ⟨v, t, h1, h2, h3⟩ := bracketClose_some s (d + 1) b h
        exact ⟨c!"[" :: v, t, by rw [h1]; simp, by simp; omega, .open_ h3⟩
      · rename_i hc2
        split at h
        · rename_i hc
          subst hc
          rw [Option.map_eq_some_iff] at h
          obtain ⟨b, h, rfl⟩ := h
          cases d with
          | zero =>
            simp [bracketClose] at h
            subst h
            exact ⟨[], s, rfl, rfl, .nil⟩
          | succ d =>
            obtain ⟨v, t, h1, h2, h3⟩ := bracketClose_some s d b h
            exact ⟨c!"]" :: v, t, by rw [h1]; simp, by simp; omega, .close h3⟩
        · rename_i hc3
          rw [Option.map_eq_some_iff] at h
          obtain ⟨b, h, rfl⟩ := h
          obtain ⟨v, t, h1, h2, h3⟩ := bracketClose_some s d b h
          exact ⟨c :: v, t, by rw [h1]; simp, by simp; omega, .plain (by simp; exact ⟨hc1, hc2, hc3⟩) h3⟩

theorem bracketClose_of {d : Nat} {v : Bytes} (h : Brackets d v) (t : Bytes) :
    bracketClose (d + 1) (v ++ c!"]" :: t) = some (v.length + 1) := by
  induction h with
  | nil =>
    unfold bracketClose
    simp only [List.nil_append]
    rw [if_neg (by decide), if_neg (by decide), if_pos trivial]
    unfold bracketClose
    rfl
  | plain hc _ ih =>
    simp at hc
    unfold bracketClose
    simp only [List.cons_append]
    rw [if_neg hc.1, if_neg hc.2.1, if_neg hc.2.2, ih]
    simp; omega
  | escape _ ih =>
    unfold bracketClose
    simp only [List.cons_append]
    rw [if_pos trivial, ih]
    simp; omega
  | open_ _ ih =>
    unfold bracketClose
    simp only [List.cons_append]
    rw [if_neg (by decide), if_pos trivial, ih]
    simp; omega
  | close _ ih =>
    unfold bracketClose
    simp only [List.cons_append]
    rw [if_neg (by decide), if_neg (by decide), if_pos trivial, ih]
    simp; omega

theorem urlLoop_spec : ∀ (n : Nat) (s : Bytes), s.length ≤ n → urlLoop s < s.length →
    UrlText (s.take (urlLoop s)) ∧ ∀ c, s[urlLoop s]? = some c → c = c!")" ∨ White c
  | _, [], _, h => by simp [urlLoop] at h
  | 0, _ :: _, h, _ => by simp at h
  | n + 1, c :: s, hn, h => by
    unfold urlLoop at h ⊢
    split at h
    · rename_i hc
      rw [if_pos hc]
      refine ⟨by simpa using UrlText.nil, ?_⟩
      simp [isWhitespace_iff] at hc
      simpa using hc
    · rename_i hc
      rw [if_neg hc]
      split at h
      · rename_i hb
        subst hb
        rw [if_pos rfl]
        cases s with
        | nil => simp at h
        | cons x s =>
          simp only [List.length_cons] at h hn
          simp only
          obtain ⟨h1, h2⟩ := urlLoop_spec n s (by omega) (by omega)
          rw [show 2 + urlLoop s = urlLoop s + 1 + 1 by omega]
          exact ⟨.escape h1, h2⟩
      · rename_i hb
        rw [if_neg hb]
        simp only [List.length_cons] at h hn
        obtain ⟨h1, h2⟩ := urlLoop_spec n s (by omega) (by omega)
        rw [show 1 + urlLoop s = urlLoop s + 1 by omega]
        refine ⟨.plain ?_ h1, h2⟩
        simp [isWhitespace_false] at hc
        exact ⟨hc.1, hb, hc.2⟩

theorem urlLoop_of {v : Bytes} (h : UrlText v) (t : Bytes) (ht : ∀ c, t.head? = some c → c = c!")" ∨ White c) :
    urlLoop (v ++ t) = v.length := by
  induction h with
  | nil =>
    cases t with
    | nil => rfl
    | cons c t =>
      unfold urlLoop
      simp only [List.nil_append]
      rw [if_pos (by simpa [isWhitespace_iff] using ht c rfl)]
      rfl
  | @plain c v hc _ ih =>
    unfold urlLoop
    simp only [List.cons_append]
    rw [if_neg (by simpa [isWhitespace_false] using ⟨hc.1, hc.2.2⟩), if_neg hc.2.1, ih]
    simp; omega
  | escape _ ih =>
    unfold urlLoop
    simp only [List.cons_append]
    rw [if_neg (by decide), if_pos trivial, ih]
    simp; omega

theorem linkClose_spec (s : Bytes) (h : linkClose s < s.length) :
    ∃ v t, s = v ++ b!")" ++ t ∧ v.length = linkClose s ∧ c!")" ∉ v := by
  unfold linkClose at *
  obtain ⟨a, b, h1, h2, h3, h4⟩ := len_split (· != c!")") s
  cases b with
  | nil => simp at h1; rw [← h2, h1] at h; omega
  | cons d b =>
    have := h4 d rfl
    simp at this
    subst this
    exact ⟨a, b, by rw [h1]; simp, h2, fun hh => by simpa using h3 _ hh⟩

theorem linkUrl_some {s : Bytes} {n : Nat} (h : linkUrl s = n) (hn : n < s.length) :
    Url (s.take n) (s.drop n) := by
  unfold linkUrl at h
  split at h
  · rename_i h0
    cases s with
    | nil => simp at h0
    | cons c s =>
      have hc : c = c!"<" := by simpa using h0
      subst hc
      simp only [List.drop_succ_cons, List.drop_zero] at h
      obtain ⟨a, b, h1, h2, h3, h4⟩ := len_split (fun c => c != c!">" && c != c!"<" && c != c!"\n") s
      rw [← h2] at h
      have ha : ∀ c ∈ a, c ∉ b!"<>\n" := by
        intro c hc
        have := h3 c hc
        simp at this
        simp [this]
      split at h
      · rename_i h5
        rw [h1, List.getElem?_append_right (by omega)] at h5
        cases b with
        | nil => simp at h5
        | cons d b =>
          have hd : d = c!">" := by simpa using h5
          subst hd
          subst h
          have : (c!"<" :: s).take (1 + a.length + 1) = b!"<" ++ a ++ b!">" := by
            rw [h1, show 1 + a.length + 1 = (c!"<" :: (a ++ b!">")).length by simp; omega]
            have := List.take_left (l₁ := c!"<" :: (a ++ b!">")) (l₂ := b)
            simpa using this
          rw [this]
          exact .angle ha
      · rename_i h5
        subst h
        have e : (c!"<" :: s).take (1 + a.length) = b!"<" ++ a := by
          rw [h1, show 1 + a.length = (c!"<" :: a).length by simp; omega]
          have := List.take_left (l₁ := c!"<" :: a) (l₂ := b)
          simpa using this
        have e' : (c!"<" :: s).drop (1 + a.length) = b := by
          rw [h1, show 1 + a.length = (c!"<" :: a).length by simp; omega]
          have := List.drop_left (l₁ := c!"<" :: a) (l₂ := b)
          simpa using this
        rw [e, e']
        refine .half ha ?_
        intro c hc
        have h6 := h4 c hc
        rw [h1, List.getElem?_append_right (by omega), Nat.sub_self, ← List.head?_eq_getElem?, hc] at h5
        simp at h5 h6
        simp
        by_cases h7 : c = c!"<"
        · exact Or.inl h7
        · exact Or.inr (h6 h5 h7)
  · rename_i h0
    subst h
    obtain ⟨h1, h2⟩ := urlLoop_spec _ s (Nat.le_refl _) hn
    refine .plain h1 ?_ ?_
    · intro h3
      apply h0
      cases s with
      | nil => simp at hn
      | cons c s =>
        cases hu : urlLoop (c :: s) with
        | zero => rw [hu] at h3; simp at h3
        | succ => rw [hu] at h3; simpa using h3
    · intro c hc
      rw [List.head?_drop] at hc
      exact h2 c hc

theorem linkUrl_of {v t : Bytes} (h : Url v t) (ht : t ≠ []) (w : Bytes) : linkUrl (v ++ (t ++ w)) = v.length := by
  unfold linkUrl
  cases h with
  | @angle v _ hv =>
    have e : b!"<" ++ v ++ b!">" ++ (t ++ w) = c!"<" :: (v ++ c!">" :: (t ++ w)) := by simp
    rw [e, if_pos (by simp)]
    simp only [List.drop_succ_cons, List.drop_zero]
    rw [len_of (a := v) (b := c!">" :: (t ++ w)) rfl ?_ (by simp), List.getElem?_append_right (by omega)]
    · simp; omega
    · intro c hc
      have := hv c hc
      simp at this
      simp [this]
  | @half v _ hv ht' =>
    have e : b!"<" ++ v ++ (t ++ w) = c!"<" :: (v ++ (t ++ w)) := by simp
    obtain ⟨d, t, rfl⟩ : ∃ d u, t = d :: u := by cases t with | nil => simp at ht | cons d u => exact ⟨d, u, rfl⟩
    have hd : d = c!"<" ∨ d = c!"\n" := by simpa using ht' d rfl
    rw [e, if_pos (by simp)]
    simp only [List.drop_succ_cons, List.drop_zero]
    rw [len_of (a := v) (b := d :: t ++ w) rfl ?_ ?_, List.getElem?_append_right (by omega), if_neg]
    · simp; omega
    · simp; rcases hd with rfl | rfl <;> decide
    · intro c hc
      have := hv c hc
      simp at this
      simp [this]
    · simp; rcases hd with rfl | rfl <;> decide
  | plain hv hh ht' =>
    obtain ⟨d, t, rfl⟩ : ∃ d u, t = d :: u := by cases t with | nil => simp at ht | cons d u => exact ⟨d, u, rfl⟩
    rw [if_neg]
    · exact urlLoop_of hv _ (by simpa using ht')
    · cases v with
      | nil =>
        have := ht' d rfl
        simp
        rintro rfl
        revert this
        unfold White
        decide
      | cons x v => simpa using hh

theorem link_some {k : Nat} {s : Bytes} {a u ti : Nat} (h : matchLink k s = some (a, u, ti)) (hs : OneLine s) :
    ∃ text url title t, s.drop k = text ++ Spec.Markdown.linkEnd url title t ∧ text.length = a ∧ url.length = u ∧
      title.length = ti ∧ Link text url title := by
  unfold matchLink at h
  split at h
  · cases h
  · rename_i b hb
    obtain ⟨v, t, h1, h2, h3⟩ := bracketClose_some _ _ _ hb
    have hd : s.drop (k + b) = t := by
      rw [← List.drop_drop, h1, show b = (v ++ [c!"]"]).length by simp; omega,
        show v ++ c!"]" :: t = (v ++ [c!"]"]) ++ t by simp, List.drop_left]
    simp only [hd] at h
    split at h
    · cases h
    · rename_i h4
      split at h
      · cases h
      · rename_i h5
        simp only [Option.some.injEq, Prod.mk.injEq] at h
        obtain ⟨rfl, rfl, rfl⟩ := h
        cases t with
        | nil => simp at h4
        | cons c t =>
          have hc : c = c!"(" := by simpa using h4
          subst hc
          simp only [List.drop_succ_cons, List.drop_zero, List.length_cons] at h5 ⊢
          rw [show 1 + linkUrl t = linkUrl t + 1 by omega] at h5 ⊢
          simp only [List.drop_succ_cons] at h5 ⊢
          have hu : linkUrl t < t.length := by omega
          obtain ⟨w, t', h6, h7, h8⟩ := linkClose_spec (t.drop (linkUrl t)) (by rw [List.length_drop]; omega)
          have hU := linkUrl_some rfl hu
          have e : s.drop k = v ++ Spec.Markdown.linkEnd (t.take (linkUrl t)) w t' := by
            rw [h1]
            unfold Spec.Markdown.linkEnd
            conv => lhs; rw [← List.take_append_drop (linkUrl t) t, h6]
            simp
          refine ⟨v, t.take (linkUrl t), w, t', e, by omega, by rw [List.length_take]; omega, h7, h3, ?_, h8, ?_⟩
          · rw [h6] at hU
            revert hU
            generalize t.take (linkUrl t) = uu
            intro hU
            have hh : (w ++ b!")" ++ t').head? = (w ++ b!")").head? := by cases w <;> simp
            cases hU with
            | angle hv => exact .angle hv
            | half hv ht => exact .half hv (by rw [hh] at ht; exact ht)
            | plain hv h ht => exact .plain hv h (by rw [hh] at ht; exact ht)
          · intro c hc
            apply hs
            apply List.mem_of_mem_drop (i := k)
            rw [e]
            unfold Spec.Markdown.linkEnd
            simp at hc ⊢
            rcases hc with hc | hc | hc <;> simp [hc]

theorem link_none {k : Nat} {s : Bytes} (h : matchLink k s = none) {text url title t : Bytes}
    (hs : s.drop k = text ++ Spec.Markdown.linkEnd url title t) : ¬ Link text url title := by
  intro hL
  unfold matchLink at h
  have e : s.drop k = text ++ c!"]" :: (c!"(" :: (url ++ ((title ++ b!")") ++ t))) := by
    rw [hs]; unfold Spec.Markdown.linkEnd; simp
  rw [e, bracketClose_of hL.brackets] at h
  simp only at h
  have hd : s.drop (k + (text.length + 1)) = c!"(" :: (url ++ ((title ++ b!")") ++ t)) := by
    rw [← List.drop_drop, e, show text.length + 1 = (text ++ [c!"]"]).length by simp]
    have := List.drop_left (l₁ := text ++ [c!"]"]) (l₂ := c!"(" :: (url ++ ((title ++ b!")") ++ t)))
    simpa using this
  rw [hd, if_neg (by simp)] at h
  simp only [List.drop_succ_cons, List.drop_zero] at h
  rw [linkUrl_of hL.dest (by simp), show 1 + url.length = url.length + 1 by omega] at h
  simp only [List.drop_succ_cons, List.drop_left] at h
  have hc : linkClose (title ++ b!")" ++ t) = title.length := by
    unfold linkClose
    rw [len_of (a := title) (b := c!")" :: t) (by simp)]
    · intro c hc
      simp
      rintro rfl
      exact hL.noParen hc
    · simp
  rw [hc, if_neg (by simp; omega)] at h
  cases h

/-! ## Emphasis -/

theorem skipTicks_spec (s : Bytes) (i : Nat) (hi : s[i]? = some c!"`") :
    i < skipTicks s i ∧ (s.length ≤ skipTicks s i ∨ s[skipTicks s i - 1]? = some c!"`") := by
  have hlt : i < s.length := by
    rcases Nat.lt_or_ge i s.length with h | h
    · exact h
    · rw [List.getElem?_eq_none h] at hi; cases hi
  unfold skipTicks
  obtain ⟨t, h1, h2⟩ := run_split c!"`" (s.drop i)
  have hm : 0 < runOf c!"`" (s.drop i) := by
    cases hr : runOf c!"`" (s.drop i) with
    | zero =>
      rw [hr] at h1
      simp at h1
      rw [← h1, List.head?_drop] at h2
      exact absurd hi h2
    | succ => omega
  simp only
  generalize runOf c!"`" (s.drop i) = m at *
  split
  · rename_i k hk
    obtain ⟨v, w, h3, h4, _⟩ := closingTicks_some hm _ _ _ _ hk
    refine ⟨by omega, Or.inr ?_⟩
    rw [show i + m + k + m - 1 = i + m + (k + (m - 1)) by omega, ← List.getElem?_drop, h3,
      List.append_assoc, List.getElem?_append_right (by omega), List.getElem?_append_left (by simp; omega)]
    simp [List.getElem?_replicate]
    omega
  · exact ⟨hlt, Or.inl (Nat.le_refl _)⟩

theorem emphasisClose_some {c : UInt8} (hc : c ≠ c!"`") {run : Nat} (hr : 0 < run) {s : Bytes} :
    ∀ (fuel i j : Nat), 0 < i → (s[i]? = some c → s[i - 1]? ≠ some c) → emphasisClose c run s fuel i = some j →
      i ≤ j ∧ s[j]? = some c ∧ runOf c (s.drop j) = run ∧ s[j - 1]? ≠ some c ∧ (∀ d, s[j - 1]? = some d → ¬ White d) ∧
      (c = c!"_" → ∀ d, s[j + run]? = some d → ¬ Alnum d)
  | 0, _, _, _, _, h => by simp [emphasisClose] at h
  | fuel + 1, i, j, h0, hI, h => by
    unfold emphasisClose at h
    split at h
    · cases h
    · rename_i ch hch
      split at h
      · rename_i ht
        subst ht
        obtain ⟨h1, h2⟩ := skipTicks_spec s i hch
        have := emphasisClose_some hc hr fuel _ j (by omega) ?_ h
        · exact ⟨by omega, this.2⟩
        · intro h3 h4
          rcases h2 with h2 | h2
          · rw [List.getElem?_eq_none h2] at h3; cases h3
          · rw [h2] at h4; simp at h4; exact hc h4.symm
      · split at h
        · rename_i hcc
          subst hcc
          obtain ⟨t, h1, h2⟩ := run_split ch (s.drop i)
          have hm : 0 < runOf ch (s.drop i) := by
            cases hr : runOf ch (s.drop i) with
            | zero =>
              rw [hr] at h1
              simp at h1
              rw [← h1, List.head?_drop] at h2
              exact absurd hch h2
            | succ => omega
          simp only at h
          split at h
          · rename_i h3
            obtain ⟨h3, h4, h5⟩ := h3
            cases h
            refine ⟨Nat.le_refl _, hch, h3, hI hch, ?_, ?_⟩
            · intro d hd hw
              apply h4
              refine ⟨h0, ?_⟩
              rw [hd]
              simpa [isWhitespace_iff] using hw
            · intro hu d hd ha
              apply h5
              refine ⟨hu, ?_⟩
              rw [h3, hd]
              simpa [isAlnum_iff] using ha
          · generalize runOf ch (s.drop i) = m at *
            have := emphasisClose_some hc hr fuel _ j (by omega) ?_ h
            · exact ⟨by omega, this.2⟩
            · intro h3
              exfalso
              apply h2
              rw [← List.getElem?_drop, h1, List.getElem?_append_right (by simp)] at h3
              simpa [List.head?_eq_getElem?] using h3
        · rename_i hcc
          have := emphasisClose_some hc hr fuel _ j (by omega) ?_ h
          · exact ⟨by omega, this.2⟩
          · intro _ h3
            rw [Nat.add_sub_cancel, hch] at h3
            exact hcc (by simpa using h3)

theorem emphasis_some {c : UInt8} (hc : c ∈ b!"*_") {s : Bytes} {prev : UInt8} {run close : Nat}
    (h : matchEmphasis c s prev = some (run, close)) :
    ∃ v t, s = List.replicate run c ++ v ++ List.replicate run c ++ t ∧ close = run + v.length ∧
      (1 ≤ run ∧ run ≤ 3) ∧ v ≠ [] ∧ (∀ d, v.head? = some d → d ≠ c ∧ ¬ White d) ∧
      (∀ d, v.getLast? = some d → d ≠ c ∧ ¬ White d) ∧ t.head? ≠ some c ∧
      (c = c!"_" → isAlnum prev = false ∧ ∀ d, t.head? = some d → ¬ Alnum d) := by
  have hct : c ≠ c!"`" := by rintro rfl; revert hc; decide
  unfold matchEmphasis at h
  simp only at h
  have hle := run_take_le c s 3
  have htk := take_run_take c s 3
  generalize runOf c (s.take 3) = r at *
  split at h
  · cases h
  · rename_i h0
    split at h
    · cases h
    · rename_i h1
      split at h
      · cases h
      · rename_i h2
        split at h
        · cases h
        · rename_i h3
          simp only [Option.map_eq_some_iff, Prod.mk.injEq] at h
          obtain ⟨j, h, rfl, rfl⟩ := h
          obtain ⟨h4, h5, h6, h7, h8, h9⟩ := emphasisClose_some hct (by omega) _ _ _ (by omega) (fun h => absurd h h1) h
          have hrj : r < j := by
            rcases Nat.lt_or_ge r j with h | h
            · exact h
            · have : r = j := by omega
              subst this
              exact absurd h5 h1
          have hj : j < s.length := by
            rcases Nat.lt_or_ge j s.length with h | h
            · exact h
            · rw [List.getElem?_eq_none h] at h5; cases h5
          obtain ⟨t, e1, e2⟩ := run_split c (s.drop j)
          rw [h6] at e1
          have hv : (s.drop r).take (j - r) ≠ [] := by
            intro hh
            have := congrArg List.length hh
            rw [List.length_take, List.length_drop] at this
            simp at this
            omega
          have e : s = List.replicate r c ++ (s.drop r).take (j - r) ++ List.replicate r c ++ t := by
            rw [List.append_assoc, ← e1, List.append_assoc]
            conv => rhs; rw [← htk]
            conv => lhs; rw [← List.take_append_drop r s, ← List.take_append_drop (j - r) (s.drop r), List.drop_drop,
              show r + (j - r) = j by omega]
          refine ⟨(s.drop r).take (j - r), t, e, by rw [List.length_take, List.length_drop]; omega, by omega, hv, ?_, ?_, e2, ?_⟩
          · intro d hd
            have : s[r]? = some d := by
              rw [List.head?_take, if_neg (by omega), List.head?_drop] at hd
              exact hd
            rw [this] at h1 h2
            simp only [Option.any_some, not_or] at h2
            exact ⟨fun hh => h1 (by rw [hh]), by rw [← isWhitespace_iff]; exact h2.2⟩
          · intro d hd
            have : s[j - 1]? = some d := by
              rw [List.getLast?_eq_getElem?, List.length_take, List.length_drop,
                Nat.min_eq_left (by omega), List.getElem?_take, if_pos (by omega), List.getElem?_drop,
                show r + (j - r - 1) = j - 1 by omega] at hd
              exact hd
            exact ⟨fun hh => h7 (by rw [this, hh]), h8 d this⟩
          · intro hu
            refine ⟨?_, ?_⟩
            · cases hp : isAlnum prev with
              | false => rfl
              | true => exact absurd ⟨hu, hp⟩ h3
            · intro d hd
              apply h9 hu
              rw [← List.getElem?_drop, e1, List.getElem?_append_right (by simp)]
              simpa [List.head?_eq_getElem?] using hd

end Ulight.Markdown
