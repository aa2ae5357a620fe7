import Verif.Parse.Utils
import Verif.Parse.Numbers
import Verif.Parse.Escapes
import Verif.Spec.Parse
import Verif.Props.Text

/-!
# C22–C28: lines, numbers, blank lines, integer literals, enclosed constructs, escapes
-/

namespace Ulight

open Spec Ascii

/-! ## Helpers -/

theorem startsWith_iff {s p : Bytes} : startsWith s p = true ↔ ∃ t, s = p ++ t := by
  simp only [startsWith, List.isPrefixOf_iff_prefix]
  exact ⟨fun ⟨t, h⟩ => ⟨t, h.symm⟩, fun ⟨t, h⟩ => ⟨t, h.symm⟩⟩

theorem startsWith_length {s p : Bytes} (h : startsWith s p = true) : p.length ≤ s.length := by
  obtain ⟨t, rfl⟩ := startsWith_iff.1 h
  simp

theorem take_length_takeWhile (p : UInt8 → Bool) (l : Bytes) :
    l.take (l.takeWhile p).length = l.takeWhile p := by
  induction l with
  | nil => rfl
  | cons a l ih => by_cases h : p a = true <;> simp [h, ih]

theorem drop_length_takeWhile (p : UInt8 → Bool) (l : Bytes) :
    l.drop (l.takeWhile p).length = l.dropWhile p := by
  induction l with
  | nil => rfl
  | cons a l ih => by_cases h : p a = true <;> simp [h, ih]

theorem findSub_spec (p s : Bytes) :
    match findSub p s with
    | some k => OccursAt p s k ∧ ∀ j < k, ¬ OccursAt p s j
    | none => ∀ j, ¬ OccursAt p s j := by
  induction s with
  | nil =>
    simp only [findSub]
    by_cases h : p = []
    · subst h
      simp [OccursAt]
    · simp only [h, if_false]
      rintro j ⟨a, b, e, _⟩
      simp at e
      exact h e.2.1
  | cons c t ih =>
    simp only [findSub]
    by_cases h : startsWith (c :: t) p = true
    · simp only [h, if_true]
      obtain ⟨u, hu⟩ := startsWith_iff.1 h
      exact ⟨⟨[], u, by simpa using hu, rfl⟩, by omega⟩
    · simp only [h]
      have h0 : ¬ OccursAt p (c :: t) 0 := by
        rintro ⟨a, b, e, ha⟩
        have : a = [] := List.length_eq_zero_iff.1 ha
        subst this
        exact h (startsWith_iff.2 ⟨b, by simpa using e⟩)
      have hs : ∀ j, OccursAt p (c :: t) (j + 1) ↔ OccursAt p t j := by
        intro j
        constructor
        · rintro ⟨a, b, e, ha⟩
          match a, ha with
          | x :: a, ha =>
            simp at e ha
            exact ⟨a, b, by simpa using e.2, ha⟩
        · rintro ⟨a, b, e, ha⟩
          exact ⟨c :: a, b, by simp [e], by simp [ha]⟩
      cases hk : findSub p t with
      | none =>
        simp only [hk] at ih
        simp only [Option.map_none]
        intro j
        cases j with
        | zero => exact h0
        | succ j => exact fun h => ih j ((hs j).1 h)
      | some k =>
        simp only [hk] at ih
        simp only [Option.map_some]
        refine ⟨(hs k).2 ih.1, ?_⟩
        intro j hj
        cases j with
        | zero => exact h0
        | succ j => exact fun h => ih.2 j (by omega) ((hs j).1 h)

/-! ## C22: lines -/

/-- `match_crlf_line` returns the content and terminator lengths of the first line. -/
theorem C22_match_crlf_line (s : Bytes) :
    ∃ content term rest, FirstLine s content term rest ∧
      (matchCrlfLine s).content = content.length ∧ (matchCrlfLine s).terminator = term.length := by
  unfold matchCrlfLine
  cases h : s.findIdx? (fun c => c = 0x0D || c = 0x0A) with
  | none =>
    refine ⟨s, [], [], ⟨by simp, ?_, by simp⟩, rfl, rfl⟩
    rw [List.findIdx?_eq_none_iff] at h
    intro c hc
    have := h c hc
    simp at this
    exact ⟨this.2, this.1⟩
  | some k =>
    rw [List.findIdx?_eq_some_iff_getElem] at h
    obtain ⟨hk, hp, hn⟩ := h
    have hc : ∀ c ∈ s.take k, c ≠ 0x0A ∧ c ≠ 0x0D := by
      intro c hc
      obtain ⟨i, hi, rfl⟩ := List.mem_take_iff_getElem.1 hc
      have := hn i (by omega)
      simp at this
      exact ⟨this.2, this.1⟩
    have hs : s = s.take k ++ s[k] :: s.drop (k + 1) := by simp
    by_cases h2 : s[k]? = some 0x0D ∧ s[k + 1]? = some 0x0A
    · obtain ⟨ha, hb⟩ := h2
      have hk1 : k + 1 < s.length := by
        rw [List.getElem?_eq_some_iff] at hb
        exact hb.1
      refine ⟨s.take k, [0x0D, 0x0A], s.drop (k + 2), ⟨?_, hc, by simp⟩, by simp; omega, by simp [ha, hb]⟩
      rw [List.getElem?_eq_getElem hk] at ha
      rw [List.getElem?_eq_getElem hk1] at hb
      simp at ha hb
      have : s.drop (k + 1) = s[k + 1] :: s.drop (k + 2) := by simp
      rw [this, ha, hb] at hs
      simpa using hs
    · refine ⟨s.take k, [s[k]], s.drop (k + 1), ⟨by simp, hc, ?_⟩, by simp; omega, by simp [h2]⟩
      simp at hp
      rcases hp with hp | hp
      · right; right; left
        refine ⟨by rw [hp], ?_⟩
        simp only [List.head?_drop]
        intro he
        exact h2 ⟨by rw [List.getElem?_eq_getElem hk, hp], he⟩
      · right; left; rw [hp]

/-- The first line is unique, so the lengths are determined by the text. -/
theorem C22_first_line_unique {s c t r c' t' r' : Bytes} (h : FirstLine s c t r)
    (h' : FirstLine s c' t' r') : c = c' ∧ t = t' ∧ r = r' := by
  obtain ⟨e, hc, ht⟩ := h
  obtain ⟨e', hc', ht'⟩ := h'
  rw [e] at e'
  clear e s
  induction c generalizing c' with
  | nil =>
    cases c' with
    | nil =>
      simp at e'
      rcases ht with rfl | rfl | ⟨rfl, h1⟩ | ⟨rfl, rfl⟩ <;>
        rcases ht' with rfl | rfl | ⟨rfl, h2⟩ | ⟨rfl, rfl⟩ <;> grind
    | cons x c' =>
      have := hc' x (by simp)
      rcases ht with rfl | rfl | ⟨rfl, h1⟩ | ⟨rfl, rfl⟩ <;> simp_all
  | cons x c ih =>
    cases c' with
    | nil =>
      have := hc x (by simp)
      rcases ht' with rfl | rfl | ⟨rfl, h1⟩ | ⟨rfl, rfl⟩ <;> simp_all
    | cons y c' =>
      simp at e'
      have := ih (c' := c') (fun z hz => hc z (by simp [hz])) (by simpa using e'.2)
        (fun z hz => hc' z (by simp [hz]))
      simp [e'.1, this]

/-- Every nonempty text has a nonempty first line or terminator, so repeated matching ends and
partitions the text. -/
theorem C22_match_crlf_line_progress (s : Bytes) (h : s ≠ []) :
    0 < (matchCrlfLine s).content + (matchCrlfLine s).terminator ∧
    (matchCrlfLine s).content + (matchCrlfLine s).terminator ≤ s.length := by
  obtain ⟨c, t, r, ⟨e, _, ht⟩, h1, h2⟩ := C22_match_crlf_line s
  rw [h1, h2, e]
  constructor
  · rcases ht with rfl | rfl | ⟨rfl, _⟩ | ⟨rfl, rfl⟩ <;> grind
  · simp

example : matchCrlfLine b!"ab\r\ncd" = ⟨2, 2⟩ ∧ matchCrlfLine b!"\rx" = ⟨0, 1⟩ ∧
    matchCrlfLine b!"ab" = ⟨2, 0⟩ := by decide +kernel

/-! ## C27: enclosed constructs -/

/-- `match_enclosed` matches iff the string starts with the prefix, up to and including the first
suffix after it; without such a suffix the rest of the string, not terminated. -/
theorem C27_match_enclosed (s pre suf : Bytes) :
    ((¬ ∃ t, s = pre ++ t) → matchEnclosed s pre suf = ⟨0, false⟩) ∧
    ∀ t, s = pre ++ t →
      (∀ k, OccursAt suf t k → (∀ j < k, ¬ OccursAt suf t j) →
        matchEnclosed s pre suf = ⟨pre.length + k + suf.length, true⟩) ∧
      ((∀ k, ¬ OccursAt suf t k) → matchEnclosed s pre suf = ⟨s.length, false⟩) := by
  constructor
  · intro h
    have : startsWith s pre = false := by
      rw [Bool.eq_false_iff]
      exact fun h' => h (startsWith_iff.1 h')
    simp [matchEnclosed, this]
  · rintro t rfl
    have : startsWith (pre ++ t) pre = true := startsWith_iff.2 ⟨t, rfl⟩
    have hd : (pre ++ t).drop pre.length = t := by simp
    simp only [matchEnclosed, this, hd]
    have := findSub_spec suf t
    constructor
    · intro k h1 h2
      cases hf : findSub suf t with
      | none => simp only [hf] at this; exact absurd h1 (this k)
      | some j =>
        simp only [hf] at this
        have : j = k := by
          rcases Nat.lt_trichotomy j k with h | h | h
          · exact absurd this.1 (h2 j h)
          · exact h
          · exact absurd h1 (this.2 k h)
        subst this
        rfl
    · intro h
      cases hf : findSub suf t with
      | none => rfl
      | some j => simp only [hf] at this; exact absurd this.1 (h j)

/-- The result never exceeds the string and is nonzero when the string starts with a nonempty
prefix. -/
theorem C27_match_enclosed_bounds (s pre suf : Bytes) :
    (matchEnclosed s pre suf).length ≤ s.length ∧
    (startsWith s pre = true → pre.length ≤ (matchEnclosed s pre suf).length ∧
      ((matchEnclosed s pre suf).terminated = true →
        pre.length + suf.length ≤ (matchEnclosed s pre suf).length)) := by
  have hs := findSub_spec suf (s.drop pre.length)
  unfold matchEnclosed
  by_cases h : startsWith s pre = true
  · have hl := startsWith_length h
    simp only [h]
    cases hf : findSub suf (s.drop pre.length) with
    | none => simp [hl]
    | some k =>
      simp only [hf] at hs
      obtain ⟨⟨a, b, e, ha⟩, _⟩ := hs
      have : (s.drop pre.length).length = a.length + suf.length + b.length := by rw [e]; simp; omega
      simp at this ⊢
      omega
  · simp [h]

example : matchEnclosed b!"/* a */ b */" b!"/*" b!"*/" = ⟨7, true⟩ ∧
    matchEnclosed b!"/*/" b!"/*" b!"*/" = ⟨3, false⟩ := by decide +kernel

/-! ## C24: digits and separators -/

theorem sepLoop_spec (base : Nat) (sep prev : UInt8) (err : Bool) (s : Bytes) :
    let run := s.takeWhile (fun c => isDigitBase c base || c = sep)
    (sepLoop base sep prev err s).1 = run.length ∧
    ((sepLoop base sep prev err s).2.2 = true ↔ err = true ∨
      ∃ a b, prev :: run = a ++ [sep, sep] ++ b) ∧
    (sepLoop base sep prev err s).2.1 =
      ((s.drop run.length).head?.getD ((prev :: run).getLast (by simp))) := by
  induction s generalizing prev err with
  | nil =>
    simp [sepLoop]
    intro a b h
    have := congrArg List.length h
    simp at this
    omega
  | cons c s ih =>
    unfold sepLoop
    by_cases h1 : c = sep
    · subst h1
      obtain ⟨i1, i2, i3⟩ := ih c (err || prev = c)
      simp only [if_true, List.takeWhile_cons, decide_true, Bool.or_true, List.length_cons]
      refine ⟨by simpa using i1, ?_, ?_⟩
      · refine i2.trans ?_
        simp only [Bool.or_eq_true, decide_eq_true_eq]
        constructor
        · rintro ((h | h) | ⟨a, b, h⟩)
          · exact Or.inl h
          · exact Or.inr ⟨[], _, by simp [h]; rfl⟩
          · exact Or.inr ⟨prev :: a, b, by simp only [List.cons_append, ← h]⟩
        · rintro (h | ⟨a, b, h⟩)
          · exact Or.inl (Or.inl h)
          · cases a with
            | nil =>
              simp at h
              exact Or.inl (Or.inr h.1)
            | cons x a =>
              simp only [List.cons_append, List.cons.injEq] at h
              exact Or.inr ⟨a, b, h.2⟩
      · simpa using i3
    · by_cases h2 : isDigitBase c base = true
      · obtain ⟨i1, i2, i3⟩ := ih c err
        simp only [h1, if_false, h2, if_true, List.takeWhile_cons, Bool.true_or, List.length_cons]
        refine ⟨by simpa using i1, ?_, ?_⟩
        · refine i2.trans ?_
          constructor
          · rintro (h | ⟨a, b, h⟩)
            · exact Or.inl h
            · exact Or.inr ⟨prev :: a, b, by simp only [List.cons_append, ← h]⟩
          · rintro (h | ⟨a, b, h⟩)
            · exact Or.inl h
            · cases a with
              | nil => simp at h; exact absurd h.2.1 h1
              | cons x a =>
                simp only [List.cons_append, List.cons.injEq] at h
                exact Or.inr ⟨a, b, h.2⟩
        · simpa using i3
      · simp [h1, h2]
        intro a b h
        have := congrArg List.length h
        simp at this
        omega

/-- The match is the longest run of digits and separators (without a separator, of digits). -/
theorem C24_longest_run (s : Bytes) (base : Nat) (sep : UInt8) :
    (matchSeparatedDigits s base sep).length =
      (s.takeWhile (fun c => isDigitBase c base || (sep != 0 && c == sep))).length := by
  unfold matchSeparatedDigits
  by_cases h : sep = 0
  · subst h
    simp [matchDigits, length_if_eq]
  · have := (sepLoop_spec base sep sep false s).1
    simp only [h, if_false]
    rw [this]
    congr 2
    funext c
    have : (sep != 0) = true := bne_iff_ne.2 h
    simp only [this, Bool.true_and]
    rfl

example : matchSeparatedDigits b!"1'2f" 10 c!"'" = ⟨3, false⟩ := by decide +kernel

/-- Without a separator nothing is erroneous. -/
theorem C24_no_separator (s : Bytes) (base : Nat) :
    (matchSeparatedDigits s base 0).erroneous = false := rfl

/-- What the code reports as erroneous: a leading or doubled separator, a trailing one only if the
number ends the string, and an empty match at the end of the string. -/
theorem C24_erroneous_iff (s : Bytes) (base : Nat) (sep : UInt8) (h : sep ≠ 0) :
    let r := matchSeparatedDigits s base sep
    r.erroneous = true ↔
      ((s.take r.length).head? = some sep ∨ (∃ a b, s.take r.length = a ++ [sep, sep] ++ b)) ∨
      (r.length = s.length ∧ (s = [] ∨ s.getLast? = some sep)) := by
  intro r
  have hlen := C24_longest_run s base sep
  have hrun : s.take r.length = s.takeWhile (fun c => isDigitBase c base || (sep != 0 && c == sep)) := by
    have : r.length = (s.takeWhile (fun c => isDigitBase c base || (sep != 0 && c == sep))).length := hlen
    rw [this, take_length_takeWhile]
  have hfun : (fun c => isDigitBase c base || (sep != 0 && c == sep)) =
      (fun c => isDigitBase c base || decide (c = sep)) := by
    funext c
    have : (sep != 0) = true := bne_iff_ne.2 h
    simp only [this, Bool.true_and]
    rfl
  rw [hfun] at hrun
  obtain ⟨i1, i2, i3⟩ := sepLoop_spec base sep sep false s
  have herr : r.erroneous = ((sepLoop base sep sep false s).2.2 ||
      decide ((sepLoop base sep sep false s).2.1 = sep)) := by
    simp only [r, matchSeparatedDigits, h, if_false]
  have hlen' : r.length = (s.takeWhile (fun c => isDigitBase c base || decide (c = sep))).length := by
    rw [← hfun]; exact hlen
  rw [herr, Bool.or_eq_true, i2, decide_eq_true_eq, i3, hrun]
  rw [← hrun]
  generalize hr : s.take r.length = run at *
  rw [← hrun] at hlen'
  have hstop : ∀ c, (s.drop r.length).head? = some c → c ≠ sep := by
    intro c hc he
    have := List.head?_dropWhile_not (fun c => isDigitBase c base || decide (c = sep)) s
    rw [← drop_length_takeWhile, ← hrun, ← hlen', hc] at this
    simp [he] at this
  constructor
  · rintro ((h1 | ⟨a, b, hab⟩) | h2)
    · simp at h1
    · cases a with
      | nil =>
        simp at hab
        exact Or.inl (Or.inl (by rw [hab]; rfl))
      | cons x a =>
        simp only [List.cons_append, List.cons.injEq] at hab
        exact Or.inl (Or.inr ⟨a, b, hab.2⟩)
    · rw [hlen'.symm] at h2
      cases hd : (s.drop r.length).head? with
      | some c =>
        rw [hd] at h2
        exact absurd h2 (hstop c hd)
      | none =>
        rw [hd] at h2
        simp only [Option.getD_none] at h2
        have hz : s.drop r.length = [] := by
          rw [List.head?_eq_none_iff] at hd; exact hd
        have hle : s.length ≤ r.length := List.drop_eq_nil_iff.1 hz
        have : run = s := by rw [← hr]; exact List.take_of_length_le hle
        right
        refine ⟨by rw [hlen', this], ?_⟩
        rw [this] at h2
        cases s with
        | nil => exact Or.inl rfl
        | cons y s =>
          right
          rw [List.getLast_cons (by simp)] at h2
          rw [List.getLast?_eq_some_getLast (by simp), h2]
  · rintro ((h1 | ⟨a, b, hab⟩) | ⟨h2, h3⟩)
    · left; right
      cases run with
      | nil => simp at h1
      | cons y run =>
        simp at h1
        exact ⟨[], run, by simp [h1]⟩
    · left; right
      exact ⟨sep :: a, b, by simp [hab]⟩
    · right
      have : run = s := by rw [← hr, h2]; simp
      rw [this]
      simp only [List.drop_length, List.head?_nil, Option.getD_none]
      rcases h3 with rfl | h3
      · rfl
      · cases s with
        | nil => simp at h3
        | cons y s =>
          rw [List.getLast_cons (by simp)]
          rw [List.getLast?_eq_some_getLast (by simp)] at h3
          simpa using h3

/-- The stated property fails: a trailing separator is not reported when something follows. -/
theorem C24_trailing_separator_unreported :
    let s := b!"1' "
    let r := matchSeparatedDigits s 10 c!"'"
    MisplacedSeparator c!"'" (s.take r.length) ∧ r.erroneous = false := by
  refine ⟨Or.inr (Or.inl (by decide +kernel)), by decide +kernel⟩

/-- It also fails in the other direction: no digits at the end of the text are reported although
no separator is misplaced. -/
theorem C24_empty_reported :
    (matchSeparatedDigits [] 10 c!"'").erroneous = true ∧
    ¬ MisplacedSeparator c!"'" ([] : Bytes) := by
  refine ⟨by decide +kernel, ?_⟩
  rintro (h | h | ⟨a, b, h⟩)
  · simp at h
  · simp at h
  · simp at h

/-- The property holds for matches that are nonempty and end the string, which is the case when
a number is matched in isolation. -/
theorem C24_misplaced_partial (s : Bytes) (base : Nat) (sep : UInt8) (h : sep ≠ 0) (hs : s ≠ [])
    (hm : (matchSeparatedDigits s base sep).length = s.length) :
    (matchSeparatedDigits s base sep).erroneous = true ↔ MisplacedSeparator sep s := by
  have := C24_erroneous_iff s base sep h
  simp only [hm, List.take_length] at this
  rw [this]
  unfold MisplacedSeparator
  grind

example : (matchSeparatedDigits b!"1''2" 10 c!"'").length = 4 ∧
    (matchSeparatedDigits b!"1''2" 10 c!"'").erroneous = true ∧
    (matchSeparatedDigits b!"1'2'3" 10 c!"'").erroneous = false := by decide +kernel

end Ulight
