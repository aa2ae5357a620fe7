import Verif.Props.Program.MarkdownInline

/-!
# How the Markdown highlighter reads blocks
-/

namespace Ulight.Markdown

open Spec Spec.Markdown

variable {env : HEnv} {x y : St} {a a' b s t : Bytes} {ts us : List Token} {k n : Nat} {c : UInt8}

/-! ## The beginning of a line -/

/-- The first character that is not a space. -/
def Starts (k : Nat) (c : UInt8) (s : Bytes) : Prop := ∃ t, s = spaces k ++ c :: t

theorem Starts.unique {k' : Nat} {c' : UInt8} (h : Starts k c s) (hc : c ≠ c!" ") (h' : Starts k' c' s) (hc' : c' ≠ c!" ") :
    k = k' ∧ c = c' := by
  obtain ⟨t, rfl⟩ := h
  obtain ⟨t', e⟩ := h'
  have h1 := run_of (c := c!" ") (s := spaces k ++ c :: t) rfl (by simpa using hc)
  have h2 := run_of (c := c!" ") (s := spaces k ++ c :: t) e (by simpa using hc')
  obtain rfl : k = k' := by omega
  have := List.append_cancel_left e
  cases this
  exact ⟨rfl, rfl⟩

theorem IsHeading.starts (h : IsHeading s) : ∃ k, k ≤ 3 ∧ Starts k c!"#" s := by
  obtain ⟨k, n, t, hk, h1, -, rfl, -⟩ := h
  obtain ⟨m, rfl⟩ : ∃ m, n = m + 1 := ⟨n - 1, by omega⟩
  exact ⟨k, hk, copies m c!"#" ++ t, by simp [List.replicate_succ]⟩

theorem IsBreak.starts (h : IsBreak s) : ∃ k c, k ≤ 3 ∧ c ∈ b!"*-_=" ∧ Starts k c s := by
  obtain ⟨k, c, t, hk, hc, rfl, -⟩ := h
  exact ⟨k, c, hk, hc, t, rfl⟩

theorem IsFence.starts (h : IsFence s) : ∃ k c, k ≤ 3 ∧ c ∈ b!"`~" ∧ Starts k c s := by
  obtain ⟨k, n, c, t, hk, rfl, hi⟩ := h
  have := hi.long
  obtain ⟨m, rfl⟩ : ∃ m, n = m + 1 := ⟨n - 1, by omega⟩
  exact ⟨k, c, hk, hi.fence, copies m c ++ t, by simp [List.replicate_succ]⟩

theorem Marker.first {m : Bytes} (h : Marker m) : ∃ c t, m = c :: t ∧ (c ∈ b!"-+*" ∨ DecDigit c) := by
  cases h with
  | bullet h => exact ⟨_, _, rfl, .inl h⟩
  | @number v x hv len hx =>
    cases v with
    | nil => simp at len
    | cons c v => exact ⟨c, _, rfl, .inr (hv c (by simp))⟩

theorem IsItem.starts (h : IsItem s) : ∃ k c, (c ∈ b!"-+*" ∨ DecDigit c) ∧ Starts k c s := by
  obtain ⟨k, m, d, t, hm, -, rfl⟩ := h
  obtain ⟨c, w, rfl, hc⟩ := Marker.first hm
  exact ⟨k, c, hc, w ++ d :: t, by simp⟩

theorem IsQuote.starts (h : IsQuote s) : ∃ k, k ≤ 3 ∧ Starts k c!">" s := by
  obtain ⟨k, t, hk, rfl⟩ := h
  exact ⟨k, hk, t, rfl⟩

theorem lead_starts (hk : k ≤ 3) (hc : c ≠ c!" ") (t : Bytes) : matchLeadSpaces (spaces k ++ c :: t) = k :=
  lead_of rfl hk (by simpa using hc)

theorem drop_spaces_at (k : Nat) (t : Bytes) : (spaces k ++ t).drop k = t := List.drop_left' (by simp [spaces])

theorem lead_split_at (s : Bytes) : s = spaces (matchLeadSpaces s) ++ s.drop (matchLeadSpaces s) := by
  conv => lhs; rw [← List.take_append_drop (matchLeadSpaces s) s, take_lead]

theorem blank_iff_at (d : UInt8) : (d == c!" " || d == c!"\t") = true ↔ Blank d := by simp [Blank]

/-! ## Headings -/

theorem dropTrailing_of {c : UInt8} {v : Bytes} {m : Nat} (h : v.getLast? ≠ some c) : dropTrailing c (v ++ copies m c) = v := by
  unfold dropTrailing
  have : ((v ++ copies m c).reverse.dropWhile (· == c)) = v.reverse := by
    rw [List.reverse_append, List.reverse_replicate]
    induction m with
    | zero =>
      simp
      rw [← List.head?_reverse] at h
      cases hv : v.reverse with
      | nil => rfl
      | cons d w => rw [hv] at h; simp at h; simp [h]
    | succ m ih => simpa [List.replicate_succ] using ih
  rw [this, List.reverse_reverse]

theorem strip_of {v t : Bytes} (h : HeadingText v t) : stripAtxTrailing (v ++ t) = v.length := by
  cases h with
  | @plain k hv h =>
    unfold stripAtxTrailing
    simp only [spaces, dropTrailing_of hv]
    split
    · rename_i h0; simp [h0]
    · rename_i h0
      split
      · rfl
      · rename_i h1
        obtain ⟨m, hm⟩ := dropTrailing_spec c!"#" v
        rw [if_neg]
        intro hh
        cases m with
        | zero =>
          simp at hm
          rw [← hm] at hh
          rcases hh with hh | hh
          · exact h0 hh
          · exact hv hh
        | succ m =>
          have := h _ _ hm (by omega)
          rcases hh with hh | hh
          · exact this.1 hh
          · exact this.2 hh
  | @closed i j k hv hi hj =>
    unfold stripAtxTrailing
    have h1 : dropTrailing c!" " (v ++ (spaces i ++ copies j c!"#" ++ spaces k)) = v ++ spaces i ++ copies j c!"#" := by
      rw [show v ++ (spaces i ++ copies j c!"#" ++ spaces k) = (v ++ spaces i ++ copies j c!"#") ++ copies k c!" " by simp [spaces]]
      exact dropTrailing_of (by rw [last_replicate hj]; simp)
    have h2 : (v ++ spaces i).getLast? ≠ some c!"#" := by
      cases i with
      | zero => rcases hi with rfl | hi
                · simp [spaces]
                · omega
      | succ i => unfold spaces; rw [last_replicate (by omega)]; simp
    simp only [h1]
    rw [if_neg (by simp; omega), if_neg (by rw [last_replicate hj]; simp), dropTrailing_of h2, if_pos]
    · exact congrArg List.length (dropTrailing_of hv)
    · cases i with
      | zero => rcases hi with rfl | hi
                · simp [spaces]
                · omega
      | succ i => right; unfold spaces; rw [last_replicate (by omega)]

theorem heading_facts (hk : k ≤ 3) (hn : 1 ≤ n ∧ n ≤ 6) (ht : t.head? ≠ some c!"#") :
    matchLeadSpaces (spaces k ++ copies n c!"#" ++ t) = k ∧ (spaces k ++ copies n c!"#" ++ t)[k]? = some c!"#" ∧
    runOf c!"#" (((spaces k ++ copies n c!"#" ++ t).drop k).take 6) = n ∧ (spaces k ++ copies n c!"#" ++ t)[k + n]? = t.head? := by
  have e : spaces k ++ copies n c!"#" ++ t = spaces k ++ (copies n c!"#" ++ t) := by simp
  rw [e]
  obtain ⟨m, rfl⟩ : ∃ m, n = m + 1 := ⟨n - 1, by omega⟩
  refine ⟨?_, ?_, ?_, ?_⟩
  · exact lead_of rfl hk (by simp [List.replicate_succ])
  · rw [List.getElem?_append_right (by simp [spaces])]
    simp [spaces, List.replicate_succ]
  · rw [drop_spaces_at]
    exact run_take_of rfl hn.2 ht
  · rw [List.getElem?_append_right (by simp [spaces]), List.getElem?_append_right (by simp [spaces])]
    simp [spaces, List.head?_eq_getElem?]

theorem reads_emptyHeading (hk : k ≤ 3) (hn : 1 ≤ n ∧ n ≤ 6) :
    Reads env (expectAtxHeading (spaces k ++ copies n c!"#").length) x (spaces k ++ copies n c!"#") [⟨k, n, .symbol_formatting⟩] b true x := by
  have hf := heading_facts (t := []) hk hn (by simp)
  rw [List.append_nil] at hf
  obtain ⟨h1, h2, h3, h4⟩ := hf
  unfold expectAtxHeading
  refine reads_rem ?_
  simp only [List.take_left, h1, h2, h3, h4]
  refine reads_else (by simp) (reads_else (by simp) ?_)
  have : Reads env (do HM.advance k; HM.emitAdv n .symbol_formatting; headingContent ((spaces k ++ copies n c!"#").length - (k + n)) : HM St Bool)
      x (spaces k ++ copies n c!"#") ([] ++ shift (spaces k).length [⟨0, n, .symbol_formatting⟩]) b true x := by
    refine (reads_advance (by simp [spaces])).bind ((reads_emit (by simp) (by simp; omega)).bind_last ?_)
    unfold headingContent
    exact reads_rem (reads_else (by simp [spaces]) reads_pure)
  exact this.tokens (by simp [shift, spaces])

theorem reads_headingContent {v t : Bytes} {o : Bool} (h : HeadingText v t) (i : Inline true 0 v ts o) (hl : OneLine v) :
    Reads env (headingContent (v ++ t).length) x (v ++ t) ts b true (opened x o) := by
  unfold headingContent
  refine reads_rem ?_
  by_cases h0 : 0 < (v ++ t).length
  · refine reads_this h0 ?_
    rw [List.take_left, strip_of h]
    have := (reads_inline (env := env) (x := x) (b := t ++ b) i hl).bind (f := fun _ => (do HM.advance ((v ++ t).length - v.length); return true : HM St Bool))
      (a' := t) (b := b) ((reads_advance (by simp)).bind_last reads_pure)
    exact this.tokens (by simp [shift])
  · refine reads_else h0 ?_
    have h0 : v ++ t = [] := by cases hv : v ++ t with
      | nil => rfl
      | cons => rw [hv] at h0; simp at h0
    obtain ⟨rfl, rfl⟩ := inline_nil i (List.append_eq_nil_iff.1 h0).1
    rw [h0, opened_false]
    exact reads_pure

theorem reads_heading {v t : Bytes} {o : Bool} (hk : k ≤ 3) (hn : 1 ≤ n ∧ n ≤ 6) (hc : Blank c) (h : HeadingText v t)
    (i : Inline true 0 v ts o) (hl : OneLine v) :
    Reads env (expectAtxHeading (spaces k ++ copies n c!"#" ++ c :: (v ++ t)).length) x (spaces k ++ copies n c!"#" ++ c :: (v ++ t))
      ([⟨k, n, .symbol_formatting⟩] ++ shift (k + n + 1) ts) b true (opened x o) := by
  have hc' : c = c!" " ∨ c = c!"\t" := by simpa [Blank] using hc
  obtain ⟨h1, h2, h3, h4⟩ := heading_facts (t := c :: (v ++ t)) hk hn (by rcases hc' with rfl | rfl <;> simp)
  unfold expectAtxHeading
  refine reads_rem ?_
  simp only [List.take_left, h1, h2, h3, h4]
  refine reads_else (by simp) (reads_else (by rcases hc' with rfl | rfl <;> simp) ?_)
  have : Reads env (do
      HM.advance k
      HM.emitAdv n .symbol_formatting
      HM.advance 1
      headingContent ((spaces k ++ copies n c!"#" ++ c :: (v ++ t)).length - (k + n + 1)) : HM St Bool)
      x (spaces k ++ (copies n c!"#" ++ ([c] ++ (v ++ t)))) ([] ++ shift (spaces k).length ([⟨0, n, .symbol_formatting⟩] ++
        shift (copies n c!"#").length ([] ++ shift [c].length ts))) b true (opened x o) := by
    refine (reads_advance (by simp [spaces])).bind ((reads_emit (by simp) (by simp; omega)).bind ((reads_advance rfl).bind ?_))
    rw [show (spaces k ++ copies n c!"#" ++ c :: (v ++ t)).length - (k + n + 1) = (v ++ t).length by simp [spaces]; omega]
    exact reads_headingContent h i hl
  have hif : (some c).any (fun c => c == c!" " || c == c!"\t") = true := by rcases hc' with rfl | rfl <;> rfl
  simp only [List.head?_cons, hif, if_true]
  refine (this.tokens ?_).text (by simp)
  simp only [List.nil_append, shift_append, shift_shift]
  simp [shift, spaces, Nat.add_assoc]

theorem no_heading (h : ¬ IsHeading s) : Reads env (expectAtxHeading s.length) x [] [] (s ++ b) false x := by
  unfold expectAtxHeading
  refine reads_rem ?_
  simp only [List.nil_append, List.take_left]
  have h1 := lead_split_at s
  have h2 := (lead_le s).1
  generalize matchLeadSpaces s = k at *
  by_cases hc : s[k]? = some c!"#"
  · refine reads_else (by simpa using hc) ?_
    have hr := run_take_le c!"#" (s.drop k) 6
    have hr' := take_run_take c!"#" (s.drop k) 6
    have hp : 1 ≤ runOf c!"#" ((s.drop k).take 6) := by
      have h0 : (s.drop k).head? = some c!"#" := by rw [List.head?_drop]; exact hc
      cases hd : s.drop k with
      | nil => rw [hd] at h0; cases h0
      | cons d w =>
        rw [hd] at h0
        cases h0
        unfold runOf Ascii.length_if
        obtain ⟨t, h3, h4⟩ := run_split c!"#" ((c!"#" :: w).take 6)
        apply Classical.byContradiction
        intro hz
        have hz : runOf c!"#" ((c!"#" :: w).take 6) = 0 := by unfold runOf Ascii.length_if; omega
        rw [hz] at h3
        simp at h3
        rw [← h3] at h4
        simp at h4
    generalize runOf c!"#" ((s.drop k).take 6) = n at *
    refine reads_this ?_ reads_pure
    apply Classical.byContradiction
    intro hb
    apply h
    refine ⟨k, n, (s.drop k).drop n, h2, hp, hr.1, ?_, ?_⟩
    · conv => lhs; rw [h1, ← List.take_append_drop n (s.drop k), hr']
      simp
    · intro d hd
      rw [List.drop_drop, List.head?_drop] at hd
      rw [hd] at hb
      simp at hb
      rw [← blank_iff_at]
      simp
      by_cases h' : d = c!" "
      · exact .inl h'
      · exact .inr (hb h')
  · exact reads_this hc reads_pure

/-! ## Breaks -/

theorem break_all (hc : c ∈ b!"*-_=") (h : ∀ d ∈ t, d = c ∨ Blank d) : (c :: t).all (fun d => d == c || d == c!" " || d == c!"\t") = true := by
  rw [List.all_eq_true]
  intro d hd
  simp only [List.mem_cons] at hd
  rcases hd with rfl | hd
  · simp
  · rcases h d hd with rfl | h
    · simp
    · rw [← blank_iff_at] at h
      rw [Bool.or_assoc, h]
      simp

theorem mark_elem (hc : c ∈ b!"*-_=") : b!"*-_=".elem c = true := List.elem_eq_true_of_mem hc

theorem mark_ne_at (hc : c ∈ b!"*-_=") : c ≠ c!" " := by rintro rfl; exact absurd hc (by decide)

theorem reads_break (hk : k ≤ 3) (hc : c ∈ b!"*-_=") (h : ∀ d ∈ t, d = c ∨ Blank d) (three : 3 ≤ (c :: t).count c) :
    Reads env (expectThematicBreak (spaces k ++ c :: t).length) x (spaces k ++ c :: t) [⟨k, t.length + 1, .symbol_formatting⟩] b true x := by
  unfold expectThematicBreak
  refine reads_rem ?_
  simp only [List.take_left, lead_starts hk (mark_ne_at hc), drop_spaces_at]
  refine reads_else (by rw [mark_elem hc]; simp) (reads_else (by rw [break_all hc h]; simp) (reads_else ?_ ?_))
  · unfold List.count at three
    omega
  · have := (reads_advance (env := env) (x := x) (n := k) (a := spaces k) (b := c :: t ++ b) (by simp [spaces])).bind
      (f := fun _ => (do HM.emitAdv ((spaces k ++ c :: t).length - k) .symbol_formatting; return true : HM St Bool))
      ((reads_emit (by simp [spaces]) (by simp)).bind_last reads_pure)
    exact this.tokens (by simp [shift, spaces])

theorem no_break (h : ¬ IsBreak s) : Reads env (expectThematicBreak s.length) x [] [] (s ++ b) false x := by
  unfold expectThematicBreak
  refine reads_rem ?_
  simp only [List.nil_append, List.take_left]
  have h1 := lead_split_at s
  have h2 := (lead_le s).1
  generalize matchLeadSpaces s = k at *
  cases hs : s.drop k with
  | nil => exact reads_pure
  | cons c t =>
    rw [hs] at h1
    by_cases e1 : (!b!"*-_=".elem c) = true
    · exact reads_this e1 reads_pure
    · refine reads_else e1 ?_
      by_cases e2 : (!(c :: t).all (fun d => d == c || d == c!" " || d == c!"\t")) = true
      · exact reads_this e2 reads_pure
      · refine reads_else e2 (reads_this ?_ reads_pure)
        apply Classical.byContradiction
        intro e3
        apply h
        refine ⟨k, c, t, h2, ?_, h1, ?_, ?_⟩
        · cases hh : b!"*-_=".elem c with
          | true => exact List.mem_of_elem_eq_true hh
          | false => rw [hh] at e1; simp at e1
        · intro d hd
          cases hh : (c :: t).all (fun d => d == c || d == c!" " || d == c!"\t") with
          | false => rw [hh] at e2; simp at e2
          | true =>
            have := List.all_eq_true.1 hh d (by simp [hd])
            rw [Bool.or_assoc, Bool.or_eq_true, blank_iff_at, beq_iff_eq] at this
            exact this
        · unfold List.count
          omega

/-! ## Code blocks -/

/-- The state in a code block. -/
def fenced (x : St) (c : UInt8) (n : Nat) : St := { x with fenced := true, fenceChar := c, fenceLength := n }

theorem fence_ne (hc : c ∈ b!"`~") : c ≠ c!" " := by rintro rfl; exact absurd hc (by decide)

theorem reads_fence (hk : k ≤ 3) (h : Info c n t) :
    Reads env (expectFencedCodeOpen (spaces k ++ copies n c ++ t).length) x (spaces k ++ copies n c ++ t) [⟨k, n, .string_delim⟩] b true
      (fenced x c n) := by
  unfold expectFencedCodeOpen
  refine reads_rem ?_
  have hn := h.long
  obtain ⟨m, rfl⟩ : ∃ m, n = m + 1 := ⟨n - 1, by omega⟩
  have e : spaces k ++ copies (m + 1) c ++ t = spaces k ++ c :: (copies m c ++ t) := by simp [List.replicate_succ]
  have hr : runOf c (c :: (copies m c ++ t)) = m + 1 := run_of (t := t) (by simp [List.replicate_succ]) h.whole
  have hd : (c :: (copies m c ++ t)).drop (m + 1) = t := by
    rw [List.drop_succ_cons, List.drop_left' (by simp)]
  simp only [e, List.take_left, lead_starts hk (fence_ne h.fence), drop_spaces_at, hr, hd]
  have hc : c = c!"`" ∨ c = c!"~" := by simpa using h.fence
  refine reads_else (by rcases hc with rfl | rfl <;> simp) (reads_else (by omega) (reads_else ?_ ?_))
  · rintro ⟨h1, h2⟩
    exact h.ticks h1 (List.mem_of_elem_eq_true h2)
  · have : Reads env (do
        HM.advance k
        HM.emitAdv (m + 1) .string_delim
        HM.advance ((spaces k ++ c :: (copies m c ++ t)).length - k - (m + 1))
        return true : HM St Bool) (fenced x c (m + 1)) (spaces k ++ (copies (m + 1) c ++ t)) ([] ++ shift (spaces k).length ([⟨0, m + 1, .string_delim⟩] ++
          shift (copies (m + 1) c).length [])) b true (fenced x c (m + 1)) :=
      (reads_advance (by simp [spaces])).bind ((reads_emit (by simp) (by simp)).bind ((reads_advance (by simp [spaces])).bind_last reads_pure))
    have := this.tokens (us := [⟨k, m + 1, .string_delim⟩]) (by simp [shift, spaces])
    rw [← List.append_assoc, e] at this
    exact this

theorem no_fence (h : ¬ IsFence s) (hl : OneLine s) : Reads env (expectFencedCodeOpen s.length) x [] [] (s ++ b) false x := by
  unfold expectFencedCodeOpen
  refine reads_rem ?_
  simp only [List.nil_append, List.take_left]
  have h1 := lead_split_at s
  have h2 := (lead_le s).1
  generalize matchLeadSpaces s = k at *
  cases hs : s.drop k with
  | nil => exact reads_pure
  | cons c t =>
    rw [hs] at h1
    by_cases e1 : c ≠ c!"`" ∧ c ≠ c!"~"
    · exact reads_this e1 reads_pure
    · refine reads_else e1 ?_
      by_cases e2 : runOf c (c :: t) < 3
      · exact reads_this e2 reads_pure
      · refine reads_else e2 (reads_this ?_ reads_pure)
        apply Classical.byContradiction
        intro e3
        apply h
        obtain ⟨w, h3, h4⟩ := run_split c (c :: t)
        generalize runOf c (c :: t) = n at *
        rw [h3] at h1
        have hw : (c :: t).drop n = w := by rw [h3, List.drop_left' (by simp)]
        rw [hw] at e3
        refine ⟨k, n, c, w, h2, by rw [h1]; simp, ?_, by omega, h4, ?_, ?_⟩
        · simp
          by_cases h5 : c = c!"`"
          · exact .inl h5
          · exact .inr (Classical.byContradiction fun h6 => e1 ⟨h5, h6⟩)
        · intro h5 h6
          exact e3 ⟨h5, List.elem_eq_true_of_mem h6⟩
        · intro d hd
          exact hl d (by rw [h1]; simp [hd])

/-! ## Lists -/

theorem blank_any (hc : Blank c) : (some c).any (fun c => c == c!" " || c == c!"\t") = true := by
  simpa using (blank_iff_at c).2 hc

theorem listMarker_of {m : Bytes} (h : Marker m) (hc : Blank c) : listMarker (m ++ c :: t) = m.length := by
  cases h with
  | @bullet d h =>
    have h : d = c!"-" ∨ d = c!"+" ∨ d = c!"*" := by simpa using h
    unfold listMarker
    simp only [List.cons_append, List.nil_append]
    rw [if_pos h, if_pos ⟨by simp, by simpa using (blank_iff_at c).2 hc⟩]
    rfl
  | @number v y hv len hy =>
    cases v with
    | nil => simp at len
    | cons d v =>
      have hd := (isDigit_iff' d).2 (hv d (by simp))
      have hx : ¬ (d = c!"-" ∨ d = c!"+" ∨ d = c!"*") := by rintro (rfl | rfl | rfl) <;> revert hd <;> decide
      have hy' : y = c!"." ∨ y = c!")" := by simpa using hy
      have hyd : isDigit y = false := by rcases hy' with rfl | rfl <;> decide
      have hlen : Ascii.length_if ((d :: v ++ [y] ++ c :: t).take 9) isDigit = (d :: v).length := by
        refine len_of (b := (y :: c :: t).take (9 - (d :: v).length)) ?_ (fun c hc => (isDigit_iff' c).2 (hv c hc)) ?_
        · rw [List.append_assoc, List.take_append, List.take_of_length_le len.2]
          rfl
        · intro e he
          rw [List.head?_take] at he
          split at he
          · cases he
          · cases he; exact hyd
      unfold listMarker
      simp only [List.cons_append]
      rw [if_neg hx, if_pos hd]
      simp only [List.cons_append] at hlen
      rw [hlen]
      have e1 : (d :: (v ++ [y] ++ c :: t))[(d :: v).length]? = some y := by
        simp
      have e2 : (d :: (v ++ [y] ++ c :: t))[(d :: v).length + 1]? = some c := by
        simp
      rw [e1, if_pos (c := some y = some c!"." ∨ some y = some c!")") (by rcases hy' with rfl | rfl <;> simp), if_pos ⟨by omega, by rw [e2]; exact blank_any hc⟩]
      simp

/-- The length of the characters that may be a mark. -/
def markLength (d : UInt8) (w : Bytes) : Nat :=
  if d = c!"-" ∨ d = c!"+" ∨ d = c!"*" then 1
  else if isDigit d then
    if (d :: w)[Ascii.length_if ((d :: w).take 9) isDigit]? = some c!"." ∨ (d :: w)[Ascii.length_if ((d :: w).take 9) isDigit]? = some c!")" then
      Ascii.length_if ((d :: w).take 9) isDigit + 1 else 0
  else 0

theorem listMarker_some_at (h : listMarker s ≠ 0) : ∃ m c t, s = m ++ c :: t ∧ Marker m ∧ Blank c := by
  cases s with
  | nil => simp [listMarker] at h
  | cons d w =>
    have h : (if markLength d w ≠ 0 ∧ ((d :: w)[markLength d w]?).any (fun c => c == c!" " || c == c!"\t") then markLength d w else 0) ≠ 0 := h
    by_cases hn : markLength d w ≠ 0 ∧ ((d :: w)[markLength d w]?).any (fun c => c == c!" " || c == c!"\t") = true
    · obtain ⟨h0, hb⟩ := hn
      clear h
      generalize hN : markLength d w = n at *
      cases hc : (d :: w)[n]? with
      | none => rw [hc] at hb; simp at hb
      | some c =>
        rw [hc] at hb
        have hc' : Blank c := (blank_iff_at c).1 (by simpa using hb)
        have hlt : n < (d :: w).length := by
          rcases Nat.lt_or_ge n (d :: w).length with h | h
          · exact h
          · rw [List.getElem?_eq_none h] at hc; cases hc
        have hsplit : d :: w = (d :: w).take n ++ c :: (d :: w).drop (n + 1) := by
          conv => lhs; rw [← List.take_append_drop n (d :: w), List.drop_eq_getElem_cons hlt]
          rw [List.getElem?_eq_getElem hlt] at hc
          cases hc
          rfl
        refine ⟨(d :: w).take n, c, (d :: w).drop (n + 1), hsplit, ?_, hc'⟩
        unfold markLength at hN
        split at hN
        · rename_i hd
          subst hN
          exact .bullet (by simpa using hd)
        · split at hN
          · rename_i hd
            obtain ⟨u, r, h1, h2, h3, h4⟩ := len_split isDigit ((d :: w).take 9)
            rw [← h2] at hN
            split at hN
            · rename_i hx
              have hul : u.length ≤ 9 := by
                have := congrArg List.length h1
                rw [List.length_take, List.length_append] at this
                omega
              have hu : (d :: w).take u.length = u := by
                have := congrArg (List.take u.length) h1
                rw [List.take_take, List.take_left, Nat.min_eq_left hul] at this
                exact this
              have hu0 : u ≠ [] := by
                rintro rfl
                rw [List.nil_append] at h1
                rw [← h1] at h4
                have := h4 d (by simp)
                rw [hd] at this
                cases this
              subst hN
              obtain ⟨y, hy, hy'⟩ : ∃ y, (d :: w)[u.length]? = some y ∧ y ∈ b!".)" := by
                rcases hx with hx | hx
                · exact ⟨_, hx, by decide⟩
                · exact ⟨_, hx, by decide⟩
              rw [List.take_add_one, hu, hy]
              exact .number (fun c hc => (isDigit_iff' c).1 (h3 c hc)) ⟨List.length_pos_iff.2 hu0, hul⟩ hy'
            · omega
          · omega
    · rw [if_neg hn] at h
      exact absurd rfl h

theorem first_ne (hc : c ∈ b!"-+*" ∨ DecDigit c) : c ≠ c!" " := by
  rintro rfl
  rcases hc with h | h
  · exact absurd h (by decide)
  · rw [← isDigit_iff'] at h; exact absurd h (by decide)

theorem reads_item {m : Bytes} {o : Bool} (h : Marker m) (hc : Blank c) (i : Inline false 0 a ts o) (hl : OneLine a) :
    Reads env (expectListMarker (spaces k ++ m ++ c :: a).length) x (spaces k ++ m ++ c :: a)
      ([⟨k, m.length, .symbol_formatting⟩] ++ shift (k + m.length + 1) ts) b true (opened x o) := by
  unfold expectListMarker
  refine reads_rem ?_
  obtain ⟨d, w, hm, hd⟩ := Marker.first h
  have hr : runOf c!" " (spaces k ++ m ++ c :: a) = k := run_of (t := m ++ c :: a) (by simp [spaces]) (by
    rw [hm]; simpa using first_ne hd)
  have hdr : (spaces k ++ m ++ c :: a).drop k = m ++ c :: a := by rw [List.append_assoc, drop_spaces_at]
  simp only [List.take_left, hr, hdr, listMarker_of h hc]
  have hm0 : m ≠ [] := by rw [hm]; simp
  refine reads_else (by simpa using hm0) ?_
  have : Reads env (do
      HM.advance k
      HM.emitAdv m.length .symbol_formatting
      HM.advance 1
      consumeInline ((spaces k ++ m ++ c :: a).length - (k + m.length) - 1)
      return true : HM St Bool)
      x (spaces k ++ (m ++ ([c] ++ a))) ([] ++ shift (spaces k).length ([⟨0, m.length, .symbol_formatting⟩] ++
        shift m.length ([] ++ shift [c].length ts))) b true (opened x o) := by
    refine (reads_advance (by simp [spaces])).bind ((reads_emit rfl hm0).bind ((reads_advance rfl).bind ?_))
    rw [show (spaces k ++ m ++ c :: a).length - (k + m.length) - 1 = a.length by simp [spaces]; omega]
    exact (reads_inline i hl).bind_last reads_pure
  refine (this.tokens ?_).text (by simp)
  simp only [List.nil_append, shift_append, shift_shift]
  simp [shift, spaces, Nat.add_assoc]

theorem no_item (h : ¬ IsItem s) : Reads env (expectListMarker s.length) x [] [] (s ++ b) false x := by
  unfold expectListMarker
  refine reads_rem ?_
  simp only [List.nil_append, List.take_left]
  refine reads_this ?_ reads_pure
  apply Classical.byContradiction
  intro hn
  obtain ⟨m, c, t, h1, h2, h3⟩ := listMarker_some_at hn
  apply h
  refine ⟨runOf c!" " s, m, c, t, h2, h3, ?_⟩
  conv => lhs; rw [← List.take_append_drop (runOf c!" " s) s, take_run, h1]
  simp [spaces]

/-! ## Indented code -/

theorem reads_indented {i : Bytes} (hi : i ∈ [b!"\t", b!"    "]) :
    Reads env (expectIndentedCode (i ++ a).length) x (i ++ a) (opt i.length a .text_code) b true x := by
  unfold expectIndentedCode
  refine reads_rem ?_
  simp only [List.mem_cons, List.not_mem_nil, or_false] at hi
  rcases hi with rfl | rfl
  · refine reads_else (by simp) (reads_this (by simp) ?_)
    have := (reads_advance (env := env) (x := x) (n := 1) (a := b!"\t") (b := a ++ b) rfl).bind
      (f := fun _ => (do HM.emitAdvIf ((b!"\t" ++ a).length - 1) .text_code; return true : HM St Bool))
      ((reads_emitIf (by simp)).bind_last reads_pure)
    exact this.tokens (by simp [shift_opt'])
  · refine reads_else (by simp) (reads_else (by simp) (reads_else ?_ ?_))
    · have : (((b!"    " ++ a) ++ b).take (b!"    " ++ a).length).take 4 = b!"    " := by
        rw [List.take_left]; simp
      rw [this]
      decide
    have := (reads_advance (env := env) (x := x) (n := 4) (a := b!"    ") (b := a ++ b) rfl).bind
      (f := fun _ => (do HM.emitAdvIf ((b!"    " ++ a).length - 4) .text_code; return true : HM St Bool))
      ((reads_emitIf (by simp)).bind_last reads_pure)
    exact this.tokens (by simp [shift_opt'])

theorem no_indented (h : ¬ IsIndented s) : Reads env (expectIndentedCode s.length) x [] [] (s ++ b) false x := by
  unfold expectIndentedCode
  refine reads_rem ?_
  cases s with
  | nil => exact reads_this rfl reads_pure
  | cons c s =>
    refine reads_else (by simp) (reads_else ?_ (reads_this ?_ reads_pure))
    · intro hh
      simp at hh
      subst hh
      exact h (.inl ⟨s, rfl⟩)
    · simp only [List.nil_append, List.take_left]
      apply Classical.byContradiction
      intro hh
      have h1 := run_take_le c!" " (c :: s) 4
      have h2 := take_run_take c!" " (c :: s) 4
      rw [show runOf c!" " ((c :: s).take 4) = 4 by omega] at h2
      exact h (.inr ⟨(c :: s).drop 4, by
        conv => rhs; rw [← List.take_append_drop 4 (c :: s), h2]
        rfl⟩)

end Ulight.Markdown
