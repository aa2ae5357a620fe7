import Verif.Props.Lang.MarkdownMatch
import Verif.Spec.Elements.Markdown

/-!
# What the functions that match Markdown find
-/

namespace Ulight.Markdown

open Spec Spec.Markdown

/-! ## Code -/

theorem span_unique {n : Nat} {v t v' t' : Bytes} (hl : v.getLast? ≠ some c!"`") (ht : t.head? ≠ some c!"`")
    (hl' : v'.getLast? ≠ some c!"`")
    (hi' : ∀ a b, v' = a ++ ticks n ++ b → a.getLast? = some c!"`" ∨ b.head? = some c!"`")
    (e : v ++ (ticks n ++ t) = v' ++ (ticks n ++ t')) : v'.length ≤ v.length := by
  apply Classical.byContradiction
  intro hlt
  rcases List.append_eq_append_iff.1 e with ⟨y, rfl, e2⟩ | ⟨y, rfl, e2⟩
  · rcases List.append_eq_append_iff.1 e2 with ⟨z, rfl, e3⟩ | ⟨z, e3, e4⟩
    · rcases hi' v z (by simp) with h | h
      · exact hl h
      · apply ht
        rw [e3]
        cases z <;> simp_all
    · have hy : y ≠ [] := by rintro rfl; simp at hlt
      have hall : ∀ c ∈ y, c = c!"`" := fun c hc => by
        have : c ∈ ticks n := by rw [e3]; simp [hc]
        exact (List.mem_replicate.1 this).2
      apply hl'
      rw [List.getLast?_append, List.getLast?_eq_some_getLast hy]
      simp
      exact hall _ (List.getLast_mem hy)
  · simp at hlt

theorem closingTicks_of {n fuel k : Nat} {v t : Bytes} (hp : Span n v t) (hf : (v ++ ticks n ++ t).length < fuel) :
    closingTicks n fuel k (v ++ ticks n ++ t) = some (k + v.length) := by
  cases h : closingTicks n fuel k (v ++ ticks n ++ t) with
  | none =>
    rcases closingTicks_none hp.pos _ _ _ hf h v t rfl with h1 | h1
    · exact absurd h1 hp.last
    · exact absurd h1 hp.next
  | some j =>
    obtain ⟨v', t', e, rfl, h3, h4, h5⟩ := closingTicks_some hp.pos _ _ _ _ h
    rw [List.append_assoc, List.append_assoc] at e
    have h1 := span_unique hp.last hp.next h4 h5 e
    have h2 := span_unique h4 h3 hp.last hp.inner e.symm
    rw [show v'.length = v.length by omega]

theorem span_head {n : Nat} {v t : Bytes} (hp : Span n v t) : (v ++ ticks n ++ t).head? ≠ some c!"`" := by
  have h1 := hp.head
  have h2 := hp.nonempty
  cases v with
  | nil => exact absurd rfl h2
  | cons d v => simpa using h1

theorem codeSpan_of {n : Nat} {v t : Bytes} (hp : Span n v t) :
    matchCodeSpan (ticks n ++ v ++ ticks n ++ t) = some (n, v.length) := by
  unfold matchCodeSpan
  have hr : runOf c!"`" (ticks n ++ v ++ ticks n ++ t) = n := run_of (t := v ++ ticks n ++ t) (by simp) (span_head hp)
  have h0 := hp.pos
  simp only [hr]
  rw [if_neg (by omega), show ticks n ++ v ++ ticks n ++ t = ticks n ++ (v ++ ticks n ++ t) by simp, List.drop_left' (by simp),
    closingTicks_of hp (by simp; omega)]
  simp

theorem codeSpan_no {s : Bytes} (hs : OneLine s) (h : ∀ n v t, s = copies n c!"`" ++ v ++ copies n c!"`" ++ t → ¬ Span n v t) :
    matchCodeSpan s = none := by
  cases h' : matchCodeSpan s with
  | none => rfl
  | some r =>
    obtain ⟨n, k⟩ := r
    obtain ⟨v, t, e, -, hp⟩ := codeSpan_some h' hs
    exact absurd hp (h n v t e)

/-! ## Links and references -/

theorem autolink_of {v t : Bytes} (hv : Autolink v) : matchAutolink (b!"<" ++ v ++ b!">" ++ t) = v.length := by
  have hne : v ≠ [] := by
    rintro rfl
    rcases hv.mark with h | h <;> simp at h
  unfold matchAutolink
  have hl : 0 < v.length := List.length_pos_iff.2 hne
  rw [if_neg (by simp; omega)]
  have hd : (b!"<" ++ v ++ b!">" ++ t).drop 1 = v ++ (c!">" :: t) := by simp
  simp only [hd]
  have hn : Ascii.length_if (v ++ c!">" :: t) (fun c => c != c!">" && c != c!"<" && !isWhitespace c) = v.length := by
    refine len_of rfl ?_ (by simp)
    intro c hc
    have := hv.chars c hc
    rw [← isWhitespace_false] at this
    simp at this
    simp [this]
  rw [hn, if_neg (by simp), List.take_left, if_pos]
  simp only [List.any_eq_true]
  rcases hv.mark with h | h
  · exact ⟨_, h, by decide⟩
  · exact ⟨_, h, by decide⟩

theorem autolink_no {s : Bytes} (h : ∀ v t, s = b!"<" ++ v ++ b!">" ++ t → ¬ Autolink v) : matchAutolink s = 0 := by
  apply Classical.byContradiction
  intro hn
  obtain ⟨v, t, e, -, hv⟩ := autolink_split rfl hn
  exact h v t e hv

theorem reference_of {v t : Bytes} (hr : Reference v) : matchReference (v ++ t) = v.length := by
  cases hr with
  | @name v hv hc =>
    cases v with
    | nil => simp at hv
    | cons d v =>
      have hd : d ≠ c!"#" := by
        rintro rfl
        have := hc _ (List.mem_cons_self ..)
        rw [← isAlnum_iff] at this
        revert this; decide
      simp [matchReference, hd]
      rw [referenceTail_pos (v := d :: v) (t := t) (by decide) (by simp) (by simp)
        (fun c hc' => (isAlnum_iff c).2 (hc c hc'))]
      simp [plus]; omega
  | @dec v hv hc =>
    cases v with
    | nil => simp at hv
    | cons d v =>
      have hd := (isDigit_iff' d).2 (hc _ (List.mem_cons_self ..))
      have hx : ¬ (d = c!"x" ∨ d = c!"X") := by rintro (rfl | rfl) <;> revert hd <;> decide
      simp [matchReference]
      rw [if_neg (by simpa using hx), referenceTail_pos (v := d :: v) (t := t) (by decide) (by simp) (by simp)
        (fun c hc' => (isDigit_iff' c).2 (hc c hc'))]
      simp [plus]; omega
  | @hex x v hx hv hc =>
    simp [matchReference]
    rw [if_pos (by simpa using hx), referenceTail_pos (v := v) (t := t) (by decide) (by simp) hv
      (fun c hc' => (isHexDigit_iff c).2 (hc c hc'))]
    simp [plus]; omega

theorem reference_no {s : Bytes} (h : ∀ v t, s = v ++ t → ¬ Reference v) : matchReference s = 0 := by
  apply Classical.byContradiction
  intro hn
  exact h _ _ (List.take_append_drop _ s).symm (reference_some rfl hn).2

theorem link_of {p text url title t : Bytes} (hL : Link text url title) :
    matchLink p.length (p ++ text ++ Spec.Markdown.linkEnd url title t) = some (text.length, url.length, title.length) := by
  unfold matchLink
  generalize hs : p ++ text ++ Spec.Markdown.linkEnd url title t = s
  have e : s.drop p.length = text ++ c!"]" :: (c!"(" :: (url ++ ((title ++ b!")") ++ t))) := by
    rw [← hs, List.append_assoc, List.drop_left]; unfold Spec.Markdown.linkEnd; simp
  rw [e, bracketClose_of hL.brackets]
  simp only
  have hd : s.drop (p.length + (text.length + 1)) = c!"(" :: (url ++ ((title ++ b!")") ++ t)) := by
    rw [← List.drop_drop, e, show text.length + 1 = (text ++ [c!"]"]).length by simp]
    have := List.drop_left (l₁ := text ++ [c!"]"]) (l₂ := c!"(" :: (url ++ ((title ++ b!")") ++ t)))
    simpa using this
  rw [hd, if_neg (by simp)]
  simp only [List.drop_succ_cons, List.drop_zero]
  rw [linkUrl_of hL.dest (by simp), show 1 + url.length = url.length + 1 by omega]
  simp only [List.drop_succ_cons, List.drop_left]
  have hc : linkClose (title ++ b!")" ++ t) = title.length := by
    unfold linkClose
    rw [len_of (a := title) (b := c!")" :: t) (by simp)]
    · intro c hc
      simp
      rintro rfl
      exact hL.noParen hc
    · simp
  rw [hc, if_neg (by simp; omega)]
  simp

theorem link_no {p s : Bytes} (hs : OneLine (p ++ s))
    (h : ∀ text url title t, p ++ s = p ++ text ++ Spec.Markdown.linkEnd url title t → ¬ Link text url title) :
    matchLink p.length (p ++ s) = none := by
  cases h' : matchLink p.length (p ++ s) with
  | none => rfl
  | some r =>
    obtain ⟨a, u, ti⟩ := r
    obtain ⟨text, url, title, t, e, -, -, -, hL⟩ := link_some h' hs
    rw [List.drop_left] at e
    exact absurd hL (h _ _ _ t (by rw [e, List.append_assoc]))

/-! ## Emphasis -/

theorem getLast_index {u s : Bytes} {p : UInt8} (hu : u.getLast? = some p) : 0 < u.length ∧ (u ++ s)[u.length - 1]? = some p := by
  have h0 : u ≠ [] := by rintro rfl; cases hu
  have := List.length_pos_iff.2 h0
  refine ⟨this, ?_⟩
  rw [List.getElem?_append_left (by omega), ← List.getLast?_eq_getElem?, hu]

theorem ender_iff {c : UInt8} {n k : Nat} {p : UInt8} {u t : Bytes} (hu : u.getLast? = some p) :
    (k = n ∧ ¬ (0 < u.length ∧ ((u ++ (copies k c ++ t))[u.length - 1]?).any isWhitespace)
      ∧ ¬ (c = c!"_" ∧ ((u ++ (copies k c ++ t))[u.length + k]?).any isAlnum)) ↔ Ender c n k p t := by
  obtain ⟨h1, h2⟩ := getLast_index (s := copies k c ++ t) hu
  have h3 : (u ++ (copies k c ++ t))[u.length + k]? = t.head? := by
    rw [List.getElem?_append_right (by omega), List.getElem?_append_right (by simp)]
    simp [List.head?_eq_getElem?]
  rw [h2, h3]
  constructor
  · rintro ⟨h4, h5, h6⟩
    refine ⟨h4, ?_, ?_⟩
    · rw [← isWhitespace_iff]
      simpa [h1] using h5
    · intro hc d hd hh
      rw [← isAlnum_iff] at hh
      exact h6 ⟨hc, by simp [hd, hh]⟩
  · rintro ⟨h4, h5, h6⟩
    refine ⟨h4, ?_, ?_⟩
    · rw [← isWhitespace_iff] at h5
      simpa [h1] using h5
    · rintro ⟨hc, hh⟩
      cases hd : t.head? with
      | none => simp [hd] at hh
      | some d =>
        simp [hd] at hh
        rw [isAlnum_iff] at hh
        exact h6 hc d hd hh

theorem skipTicks_of {k : Nat} {u w t : Bytes} (hp : Span k w t) :
    skipTicks (u ++ (ticks k ++ w ++ ticks k ++ t)) u.length = u.length + (ticks k ++ w ++ ticks k).length := by
  unfold skipTicks
  have hr : runOf c!"`" ((u ++ (ticks k ++ w ++ ticks k ++ t)).drop u.length) = k := by
    rw [List.drop_left]
    exact run_of (t := w ++ ticks k ++ t) (by simp) (span_head hp)
  have h0 := hp.pos
  simp only [hr]
  have e : (u ++ (ticks k ++ w ++ ticks k ++ t)).drop (u.length + k) = w ++ ticks k ++ t := by
    rw [← List.drop_drop, List.drop_left, show ticks k ++ w ++ ticks k ++ t = ticks k ++ (w ++ ticks k ++ t) by simp,
      List.drop_left' (by simp)]
  rw [e, closingTicks_of hp (by simp; omega)]
  simp; omega

theorem emphasisClose_of {c : UInt8} (hct : c ≠ c!"`") {n : Nat} (hn : 0 < n) {p : UInt8} {v r : Bytes} (h : UpTo c n p v r) :
    ∀ (u : Bytes) (fuel : Nat), u.getLast? = some p → v.length < fuel →
      emphasisClose c n (u ++ (v ++ r)) fuel u.length = some (u.length + v.length) := by
  induction h with
  | @here p t h ht =>
    intro u fuel hu hf
    obtain ⟨fuel, rfl⟩ : ∃ k, fuel = k + 1 := ⟨fuel - 1, by simp at hf; omega⟩
    unfold emphasisClose
    obtain ⟨m, rfl⟩ : ∃ k, n = k + 1 := ⟨n - 1, by omega⟩
    have h0 : (u ++ ([] ++ (copies (m + 1) c ++ t)))[u.length]? = some c := by
      rw [List.getElem?_append_right (by omega)]
      simp [List.replicate_succ]
    rw [h0]
    simp only [hct, if_false, if_true]
    have hr : runOf c ((u ++ ([] ++ (copies (m + 1) c ++ t))).drop u.length) = m + 1 := by
      rw [List.drop_left]
      exact run_of rfl ht
    rw [hr, List.nil_append, if_pos ((ender_iff hu).2 h)]
    rfl
  | @code p k w v t hp h ih =>
    intro u fuel hu hf
    obtain ⟨fuel, rfl⟩ : ∃ k, fuel = k + 1 := ⟨fuel - 1, by omega⟩
    unfold emphasisClose
    have hk := hp.pos
    have e : u ++ (copies k c!"`" ++ w ++ copies k c!"`" ++ v ++ t) = u ++ (copies k c!"`" ++ w ++ copies k c!"`" ++ (v ++ t)) := by simp
    have h0 : (u ++ (copies k c!"`" ++ w ++ copies k c!"`" ++ v ++ t))[u.length]? = some c!"`" := by
      obtain ⟨m, rfl⟩ : ∃ j, k = j + 1 := ⟨k - 1, by omega⟩
      rw [List.getElem?_append_right (by omega)]
      simp [List.replicate_succ]
    rw [h0]
    simp only [if_true]
    rw [e, skipTicks_of hp]
    have := ih (u ++ (copies k c!"`" ++ w ++ copies k c!"`")) fuel (by
      rw [← List.append_assoc]; exact last_replicate hk _) (by simp at hf ⊢; omega)
    rw [List.append_assoc, List.length_append] at this
    rw [this]
    simp; omega
  | @run p k v t hk ht h' h ih =>
    intro u fuel hu hf
    obtain ⟨fuel, rfl⟩ : ∃ k, fuel = k + 1 := ⟨fuel - 1, by omega⟩
    unfold emphasisClose
    have e : u ++ (copies k c ++ v ++ t) = u ++ (copies k c ++ (v ++ t)) := by simp
    have h0 : (u ++ (copies k c ++ v ++ t))[u.length]? = some c := by
      obtain ⟨m, rfl⟩ : ∃ j, k = j + 1 := ⟨k - 1, by omega⟩
      rw [List.getElem?_append_right (by omega)]
      simp [List.replicate_succ]
    rw [h0]
    simp only [hct, if_false, if_true]
    have hr : runOf c ((u ++ (copies k c ++ v ++ t)).drop u.length) = k := by
      rw [List.drop_left]
      exact run_of (by simp) ht
    rw [hr, e, if_neg (fun hh => h' ((ender_iff hu).1 hh))]
    have := ih (u ++ copies k c) fuel (by
      obtain ⟨m, rfl⟩ : ∃ j, k = j + 1 := ⟨k - 1, by omega⟩
      simp [List.getLast?_append, List.replicate_succ']) (by simp at hf ⊢; omega)
    rw [List.append_assoc, List.length_append] at this
    simp only [List.length_replicate] at this
    rw [this]
    simp; omega
  | @other p d v t hd hd' h ih =>
    intro u fuel hu hf
    obtain ⟨fuel, rfl⟩ : ∃ k, fuel = k + 1 := ⟨fuel - 1, by omega⟩
    unfold emphasisClose
    have h0 : (u ++ (d :: v ++ t))[u.length]? = some d := by
      rw [List.getElem?_append_right (by omega)]
      simp
    rw [h0]
    simp only [hd, hd', if_false]
    have := ih (u ++ [d]) fuel (by simp) (by simp at hf ⊢; omega)
    rw [List.append_assoc, List.length_append] at this
    rw [show u ++ (d :: v ++ t) = u ++ ([d] ++ (v ++ t)) by simp]
    simp only [List.length_cons, List.length_nil, Nat.zero_add] at this
    rw [this]
    simp; omega

theorem emphasis_of {c : UInt8} {n : Nat} {p : UInt8} {v t : Bytes} (h : Emphasized c n p v t) :
    matchEmphasis c (copies n c ++ v ++ copies n c ++ t) p = some (n, n + v.length) := by
  have hct : c ≠ c!"`" := by rintro rfl; exact absurd h.mark (by decide)
  obtain ⟨d, w, rfl⟩ := List.exists_cons_of_ne_nil h.nonempty
  have hd := h.head d rfl
  have hn := h.few
  unfold matchEmphasis
  have e : copies n c ++ d :: w ++ copies n c ++ t = copies n c ++ (d :: w ++ (copies n c ++ t)) := by simp
  have hr : runOf c ((copies n c ++ d :: w ++ copies n c ++ t).take 3) = n :=
    run_take_of e hn.2 (by simp; exact hd.1)
  have h1 : (copies n c ++ d :: w ++ copies n c ++ t)[n]? = some d := by
    rw [e, List.getElem?_append_right (by simp)]
    simp
  simp only [hr, h1]
  rw [if_neg (by omega), if_neg (by simpa using hd.1), if_neg (by
    rintro (h | h)
    · simp at h
      omega
    · rw [← isWhitespace_iff] at hd
      simp at h
      exact hd.2 h), if_neg (by
    rintro ⟨h2, h3⟩
    rw [isAlnum_iff] at h3
    exact h.word h2 h3)]
  have := emphasisClose_of hct (by omega) h.first (copies n c) (copies n c ++ d :: w ++ copies n c ++ t).length (by
    obtain ⟨m, rfl⟩ : ∃ j, n = j + 1 := ⟨n - 1, by omega⟩
    simp [List.replicate_succ']) (by simp; omega)
  rw [← e] at this
  rw [List.length_replicate] at this
  rw [this]
  rfl

theorem upTo_of {c : UInt8} (hct : c ≠ c!"`") {n : Nat} (hn : 0 < n) : ∀ (fuel : Nat) (u s : Bytes) (p : UInt8) (j : Nat),
    OneLine s → u.getLast? = some p → emphasisClose c n (u ++ s) fuel u.length = some j →
      ∃ v t, s = v ++ copies n c ++ t ∧ t.head? ≠ some c ∧ UpTo c n p v (copies n c ++ t)
  | 0, _, _, _, _, _, _, h => by simp [emphasisClose] at h
  | fuel + 1, u, s, p, j, hs, hu, h => by
    unfold emphasisClose at h
    have h0 : (u ++ s)[u.length]? = s.head? := by
      rw [List.getElem?_append_right (by omega)]
      simp [List.head?_eq_getElem?]
    rw [h0] at h
    cases s with
    | nil => cases h
    | cons d s =>
      simp only [List.head?_cons] at h
      split at h
      · rename_i hd
        subst hd
        by_cases hsp : ∃ k w t, c!"`" :: s = ticks k ++ w ++ ticks k ++ t ∧ Span k w t
        · obtain ⟨k, w, t, e, hp⟩ := hsp
          have hk := hp.pos
          rw [e, skipTicks_of hp, show u ++ (ticks k ++ w ++ ticks k ++ t) = (u ++ (ticks k ++ w ++ ticks k)) ++ t by simp,
            ← List.length_append] at h
          obtain ⟨v, r, rfl, h2, h3⟩ := upTo_of hct hn fuel _ t c!"`" j (fun c hc => hs c (by rw [e]; simp [hc])) (by
            rw [← List.append_assoc]; exact last_replicate hk _) h
          exact ⟨ticks k ++ w ++ ticks k ++ v, r, by rw [e]; simp, h2, .code (by simpa using hp) h3⟩
        · have : skipTicks (u ++ c!"`" :: s) u.length = (u ++ c!"`" :: s).length := by
            unfold skipTicks
            simp only [List.drop_left]
            split
            · rename_i k hk
              exfalso
              apply hsp
              obtain ⟨t, h1, h2⟩ := run_split c!"`" (c!"`" :: s)
              have hm : 0 < runOf c!"`" (c!"`" :: s) := by
                cases hr : runOf c!"`" (c!"`" :: s) with
                | zero => rw [hr] at h1; simp at h1; rw [← h1] at h2; simp at h2
                | succ => omega
              have hsl : OneLine t := fun c hc => hs c (by rw [h1]; simp [hc])
              generalize runOf c!"`" (c!"`" :: s) = m at *
              rw [← List.drop_drop, List.drop_left, h1, List.drop_left' (by simp)] at hk
              obtain ⟨w, r, rfl, -, h3, h4, h5⟩ := closingTicks_some hm _ _ _ _ hk
              refine ⟨m, w, r, by rw [h1]; simp, ⟨hm, ?_, ?_, h4, h3, h5, fun c hc => hsl c (by simp [hc])⟩⟩
              · rintro rfl
                apply h2
                obtain ⟨m, rfl⟩ : ∃ j, m = j + 1 := ⟨m - 1, by omega⟩
                simp [List.replicate_succ]
              · intro hh
                apply h2
                cases w <;> simp_all
            · rfl
          rw [this] at h
          cases fuel with
          | zero => simp [emphasisClose] at h
          | succ fuel =>
            unfold emphasisClose at h
            rw [List.getElem?_eq_none (by omega)] at h
            cases h
      · rename_i hd
        split at h
        · rename_i hc
          subst hc
          obtain ⟨t, h1, h2⟩ := run_split d (d :: s)
          have hm : 0 < runOf d (d :: s) := by
            cases hr : runOf d (d :: s) with
            | zero => rw [hr] at h1; simp at h1; rw [← h1] at h2; simp at h2
            | succ => omega
          rw [List.drop_left] at h
          generalize runOf d (d :: s) = m at *
          rw [h1] at h
          have hif := ender_iff (c := d) (n := n) (k := m) (t := t) hu
          by_cases he : Ender d n m p t
          · rw [if_pos (hif.2 he)] at h
            obtain rfl := he.same
            exact ⟨[], t, by simpa using h1, h2, .here he h2⟩
          · rw [if_neg (fun hh => he (hif.1 hh))] at h
            rw [show u ++ (List.replicate m d ++ t) = (u ++ copies m d) ++ t by simp,
              show u.length + m = (u ++ copies m d).length by simp] at h
            obtain ⟨v, r, rfl, h3, h4⟩ := upTo_of hct hn fuel _ t d j (fun c hc => hs c (by rw [h1]; simp [hc])) (by
              obtain ⟨m, rfl⟩ : ∃ j, m = j + 1 := ⟨m - 1, by omega⟩
              simp [List.getLast?_append, List.replicate_succ']) h
            exact ⟨copies m d ++ v, r, by rw [h1]; simp, h3, .run hm (by simpa using h2) (by simpa using he) h4⟩
        · rename_i hc
          rw [show u ++ d :: s = (u ++ [d]) ++ s by simp, show u.length + 1 = (u ++ [d]).length by simp] at h
          obtain ⟨v, r, rfl, h3, h4⟩ := upTo_of hct hn fuel _ s d j (fun c hc => hs c (by simp [hc])) (by simp) h
          exact ⟨d :: v, r, rfl, h3, .other hc hd h4⟩

theorem emphasis_no {c : UInt8} (hc : c ∈ b!"*_") {s : Bytes} {p : UInt8} (hs : OneLine s)
    (h : ∀ n v t, s = copies n c ++ v ++ copies n c ++ t → ¬ Emphasized c n p v t) : matchEmphasis c s p = none := by
  have hct : c ≠ c!"`" := by rintro rfl; exact absurd hc (by decide)
  cases h' : matchEmphasis c s p with
  | none => rfl
  | some r =>
    exfalso
    unfold matchEmphasis at h'
    simp only at h'
    have hle := run_take_le c s 3
    have htk := take_run_take c s 3
    generalize runOf c (s.take 3) = n at *
    split at h'
    · cases h'
    rename_i h0
    split at h'
    · cases h'
    rename_i h1
    split at h'
    · cases h'
    rename_i h2
    split at h'
    · cases h'
    rename_i h3
    simp only [Option.map_eq_some_iff] at h'
    obtain ⟨j, h', -⟩ := h'
    have e : s = copies n c ++ s.drop n := by
      conv => lhs; rw [← List.take_append_drop n s, htk]
    have hn : (copies n c).length = n := by simp
    have hlast : (copies n c).getLast? = some c := by
      obtain ⟨m, rfl⟩ : ∃ j, n = j + 1 := ⟨n - 1, by omega⟩
      simp [List.replicate_succ']
    generalize hd : s.drop n = w at e
    subst e
    rw [← hn] at h'
    simp only [List.length_replicate] at h'
    obtain ⟨v, t, rfl, h5, h6⟩ := upTo_of (n := n) hct (by omega) _ (copies n c) w c j (fun c hc => hs c (by simp [hc])) hlast (by
      simpa using h')
    have hh : (copies n c ++ (v ++ copies n c ++ t))[n]? = (v ++ copies n c ++ t).head? := by
      rw [List.getElem?_append_right (by simp)]
      simp [List.head?_eq_getElem?]
    rw [hh] at h1 h2
    have hv : v ≠ [] := by
      rintro rfl
      obtain ⟨m, rfl⟩ : ∃ j, n = j + 1 := ⟨n - 1, by omega⟩
      simp [List.replicate_succ] at h1
    refine h n v t (by simp) ⟨hc, by omega, hv, ?_, h5, ?_, h6⟩
    · intro d hd
      have : (v ++ copies n c ++ t).head? = some d := by cases v <;> simp_all
      rw [this] at h1 h2
      simp only [Option.any_some, not_or] at h2
      exact ⟨fun hh => h1 (by rw [hh]), by rw [← isWhitespace_iff]; exact h2.2⟩
    · intro hu hp
      rw [← isAlnum_iff] at hp
      exact h3 ⟨hu, hp⟩

end Ulight.Markdown
