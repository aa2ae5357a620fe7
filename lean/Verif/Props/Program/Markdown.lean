import Verif.Props.Program.MarkdownBlocks

/-!
# C58: Markdown documents get exactly the tokens of their lines
-/

namespace Ulight.Markdown

open Spec Spec.Markdown

variable {env : HEnv} {x y : St} {a a' b s t v e : Bytes} {ts us : List Token} {k n : Nat} {c : UInt8} {m : Spec.Markdown.Mode}

/-! ## Block quotes -/

theorem no_quote {d : Nat} (h : ¬ IsQuote s) (hd : 0 < d) : Reads env (blockquote d s.length) x [] [] (s ++ b) false x := by
  obtain ⟨d, rfl⟩ : ∃ k, d = k + 1 := ⟨d - 1, by omega⟩
  unfold blockquote
  refine reads_rem ?_
  simp only [List.nil_append, List.take_left]
  have h1 := lead_split_at s
  have h2 := (lead_le s).1
  generalize matchLeadSpaces s = k at *
  refine reads_this ?_ reads_pure
  intro hc
  apply h
  rw [← List.head?_drop] at hc
  cases hs : s.drop k with
  | nil => rw [hs] at hc; cases hc
  | cons c t =>
    rw [hs] at hc h1
    cases hc
    exact ⟨k, t, h2, h1⟩

theorem reads_quote {d : Nat} (hk : k ≤ 3) (ht : t ∈ [[], b!" ", b!"\t"]) (h : t = [] → ∀ c, a.head? = some c → ¬ Blank c)
    (hq : Reads env (quoted (blockquote d) a.length) x a ts b true y) :
    Reads env (blockquote (d + 1) (spaces k ++ b!">" ++ t ++ a).length) x (spaces k ++ b!">" ++ t ++ a)
      ([⟨k, 1, .symbol_formatting⟩] ++ shift (k + 1 + t.length) ts) b true y := by
  unfold blockquote
  refine reads_rem ?_
  have e : spaces k ++ b!">" ++ t ++ a = spaces k ++ c!">" :: (t ++ a) := by simp
  have h1 : matchLeadSpaces (spaces k ++ b!">" ++ t ++ a) = k := by rw [e]; exact lead_starts hk (by decide) _
  have h2 : (spaces k ++ b!">" ++ t ++ a)[k]? = some c!">" := by
    rw [e, List.getElem?_append_right (by simp [spaces])]
    simp [spaces]
  simp only [List.take_left, h1, h2]
  refine reads_else (by simp) ?_
  have hlen : (spaces k ++ b!">" ++ t ++ a).length = k + 1 + t.length + a.length := by simp [spaces]; omega
  rw [hlen]
  have hr : Reads env (HM.rem >>= fun r => if k + 1 < k + 1 + t.length + a.length ∧ (r.head? = some c!" " ∨ r.head? = some c!"\t") then (do
        HM.advance 1
        quoted (blockquote d) (k + 1 + t.length + a.length - (k + 1 + 1)) : HM St Bool)
      else quoted (blockquote d) (k + 1 + t.length + a.length - (k + 1))) x (t ++ a) (shift t.length ts) b true y := by
    refine reads_rem ?_
    simp only [List.mem_cons, List.not_mem_nil, or_false] at ht
    by_cases h0 : t = []
    · subst h0
      refine reads_else ?_ ?_
      · rintro ⟨h3, h4⟩
        cases a with
        | nil => simp at h3
        | cons d w =>
          refine h rfl d rfl ?_
          simp at h4
          simpa [Blank] using h4
      · rw [show k + 1 + ([] : Bytes).length + a.length - (k + 1) = a.length by simp]
        exact (hq.tokens (by simp [shift])).text rfl
    · obtain ⟨d', rfl, hd'⟩ : ∃ d, t = [d] ∧ (d = c!" " ∨ d = c!"\t") := by
        rcases ht with rfl | rfl | rfl
        · exact absurd rfl h0
        · exact ⟨_, rfl, .inl rfl⟩
        · exact ⟨_, rfl, .inr rfl⟩
      refine reads_this ⟨by simp; omega, by simpa using hd'⟩ ?_
      rw [show k + 1 + [d'].length + a.length - (k + 1 + 1) = a.length by simp]
      exact ((reads_advance rfl).bind hq).tokens rfl
  have := (reads_advance (env := env) (x := x) (n := k) (a := spaces k) (b := b!">" ++ (t ++ a) ++ b) (by simp [spaces])).bind
    (f := fun _ => (do
      HM.emitAdv 1 .symbol_formatting
      HM.rem >>= fun r => if k + 1 < k + 1 + t.length + a.length ∧ (r.head? = some c!" " ∨ r.head? = some c!"\t") then (do
        HM.advance 1
        quoted (blockquote d) (k + 1 + t.length + a.length - (k + 1 + 1)) : HM St Bool)
      else quoted (blockquote d) (k + 1 + t.length + a.length - (k + 1)) : HM St Bool))
    ((reads_emit (a := b!">") (n := 1) (ty := .symbol_formatting) (mode := .normal) rfl (by simp)).bind hr)
  refine (this.tokens ?_).text (by simp)
  rw [List.nil_append, shift_append, shift_shift, shift_shift]
  rw [show (spaces k).length = k by simp [spaces]]
  simp [shift]

/-! ## What a line is not -/

theorem not_white_hash : ¬ White c!"#" := by unfold White; decide

theorem not_white_quote : ¬ White c!">" := by unfold White; decide

theorem four_ne (hk : k ≤ 3) (hc : c ≠ c!" ") : ¬ Starts k c (b!"    " ++ a) := by
  rintro ⟨t, e⟩
  have := congrArg (fun l => l[k]?) e
  rw [List.getElem?_append_left (by simp; omega), List.getElem?_append_right (by simp [spaces])] at this
  simp [spaces] at this
  have h4 : k = 0 ∨ k = 1 ∨ k = 2 ∨ k = 3 := by omega
  rcases h4 with rfl | rfl | rfl | rfl <;> simp at this <;> exact hc this.symm

theorem indented_ne {i : Bytes} (hi : i ∈ [b!"\t", b!"    "]) (hk : k ≤ 3) (hc : c ≠ c!" ") (hc' : c ≠ c!"\t") : ¬ Starts k c (i ++ a) := by
  simp only [List.mem_cons, List.not_mem_nil, or_false] at hi
  rcases hi with rfl | rfl
  · intro h
    exact hc' (Starts.unique h hc ⟨a, rfl⟩ (by decide) (k' := 0)).2
  · exact four_ne hk hc

theorem not_heading (hs : Starts k c s) (hc : c ≠ c!" ") (hn : c ≠ c!"#") : ¬ IsHeading s := by
  intro h
  obtain ⟨k', -, h⟩ := IsHeading.starts h
  exact hn (Starts.unique hs hc h (by decide)).2

theorem not_break (hs : Starts k c s) (hc : c ≠ c!" ") (hn : c ∉ b!"*-_=") : ¬ IsBreak s := by
  intro h
  obtain ⟨k', c', -, h1, h⟩ := IsBreak.starts h
  exact hn ((Starts.unique hs hc h (mark_ne_at h1)).2 ▸ h1)

theorem not_fence (hs : Starts k c s) (hc : c ≠ c!" ") (hn : c ∉ b!"`~") : ¬ IsFence s := by
  intro h
  obtain ⟨k', c', -, h1, h⟩ := IsFence.starts h
  exact hn ((Starts.unique hs hc h (fence_ne h1)).2 ▸ h1)

theorem not_item (hs : Starts k c s) (hc : c ≠ c!" ") (hn : ¬ (c ∈ b!"-+*" ∨ DecDigit c)) : ¬ IsItem s := by
  intro h
  obtain ⟨k', c', h1, h⟩ := IsItem.starts h
  exact hn ((Starts.unique hs hc h (first_ne h1)).2 ▸ h1)

theorem visible_starts (hs : Starts k c s) (hc : ¬ White c) : Visible s := by
  obtain ⟨t, rfl⟩ := hs
  exact ⟨c, by simp, hc⟩

theorem heading_starts (hn : 1 ≤ n) : Starts k c!"#" (spaces k ++ copies n c!"#" ++ t) := by
  obtain ⟨j, rfl⟩ : ∃ j, n = j + 1 := ⟨n - 1, by omega⟩
  exact ⟨copies j c!"#" ++ t, by simp [List.replicate_succ]⟩

theorem fence_starts (h : Info c n t) : Starts k c (spaces k ++ copies n c ++ t) := by
  have := h.long
  obtain ⟨j, rfl⟩ : ∃ j, n = j + 1 := ⟨n - 1, by omega⟩
  exact ⟨copies j c ++ t, by simp [List.replicate_succ]⟩

theorem quote_starts : Starts k c!">" (spaces k ++ b!">" ++ t ++ a) := ⟨t ++ a, by simp⟩

theorem mark_starts : Starts k c (spaces k ++ c :: t) := ⟨t, rfl⟩

theorem item_starts {m : Bytes} (h : Marker m) : ∃ d, (d ∈ b!"-+*" ∨ DecDigit d) ∧ Starts k d (spaces k ++ m ++ c :: a) := by
  obtain ⟨d, w, rfl, hd⟩ := Marker.first h
  exact ⟨d, hd, w ++ c :: a, by simp⟩

theorem first_facts (hc : c ∈ b!"-+*" ∨ DecDigit c) : c ≠ c!"#" ∧ c ∉ b!"`~" ∧ c ≠ c!">" ∧ ¬ White c := by
  have : ∀ c : UInt8, (c ∈ b!"-+*" ∨ isDigit c = true) → c ≠ c!"#" ∧ c ∉ b!"`~" ∧ c ≠ c!">" ∧ c ∉ b!" \t\r\n" := by
    apply forall_byte; decide +kernel
  rw [← isDigit_iff'] at hc
  exact this c hc

theorem mark_facts (hc : c ∈ b!"*-_=") : c ≠ c!"#" ∧ ¬ White c := by
  have : ∀ c : UInt8, c ∈ b!"*-_=" → c ≠ c!"#" ∧ c ∉ b!" \t\r\n" := by apply forall_byte; decide +kernel
  exact this c hc

theorem fence_facts (hc : c ∈ b!"`~") : c ≠ c!"#" ∧ c ∉ b!"*-_=" ∧ ¬ White c := by
  have : ∀ c : UInt8, c ∈ b!"`~" → c ≠ c!"#" ∧ c ∉ b!"*-_=" ∧ c ∉ b!" \t\r\n" := by apply forall_byte; decide +kernel
  exact this c hc

/-! ## Blocks -/

theorem quoted_reads {q : Bool} (h : Block q a ts m) : q = true → ∀ (d : Nat) (b : Bytes) (x : St), a.length < d → OneLine a →
    ∃ o, m = .after o ∧ Reads env (quoted (blockquote d) a.length) x a ts b true (opened x o) := by
  have hne : ∀ {k c s}, Starts k c s → s.length ≠ 0 := by rintro k c s ⟨t, rfl⟩; simp
  induction h with
  | blank => intro hq; cases hq
  | nothing =>
    intro _ d b x _ _
    exact ⟨false, rfl, by rw [opened_false]; exact reads_this rfl reads_pure⟩
  | @emptyHeading q k n hk hn =>
    intro _ d b x _ _
    have hs := heading_starts (t := []) (k := k) hn.1
    rw [List.append_nil] at hs
    exact ⟨false, rfl, by rw [opened_false]; exact reads_else (hne hs) (reads_or (reads_emptyHeading hk hn))⟩
  | heading hk hn hc h i =>
    intro _ d b x _ hl
    exact ⟨_, rfl, reads_else (hne (heading_starts hn.1)) (reads_or (reads_heading hk hn hc h i fun c hc => hl c (by simp [hc])))⟩
  | @break_ _ k c t hk hc h three =>
    intro _ d b x _ _
    have hs := mark_starts (k := k) (c := c) (t := t)
    exact ⟨false, rfl, by
      rw [opened_false]
      exact reads_else (hne hs) (reads_or_else (no_heading (not_heading hs (mark_ne_at hc) (mark_facts hc).1)) (reads_or (reads_break hk hc h three)))⟩
  | fence => intro hq; cases hq
  | @item q k m' c a ts o h hc hb i =>
    intro _ d b x _ hl
    obtain ⟨f, hf, hs⟩ := item_starts (k := k) (c := c) (a := a) h
    exact ⟨_, rfl, reads_else (hne hs) (reads_or_else (no_heading (not_heading hs (first_ne hf) (first_facts hf).1))
      (reads_or_else (no_break hb) (reads_or (reads_item h hc i fun c hc => hl c (by simp [hc])))))⟩
  | @quote q k t a ts m' hk ht h hb ih =>
    intro _ d b x hd hl
    have hs := quote_starts (k := k) (t := t) (a := a)
    obtain ⟨d, rfl⟩ : ∃ j, d = j + 1 := ⟨d - 1, by omega⟩
    obtain ⟨o, ho, hr⟩ := ih rfl d b x (by simp at hd; omega) fun c hc => hl c (by simp [hc])
    exact ⟨o, ho, reads_else (hne hs) (reads_or_else (no_heading (not_heading hs (by decide) (by decide)))
      (reads_or_else (no_break (not_break hs (by decide) (by decide))) (reads_or_else (no_item (not_item hs (by decide) (by unfold DecDigit; decide)))
        (reads_or (reads_quote hk ht h hr)))))⟩
  | @indented q i a hi v h =>
    intro _ d b x hd hl
    refine ⟨false, rfl, ?_⟩
    rw [opened_false]
    refine reads_else (by
      simp only [List.mem_cons, List.not_mem_nil, or_false] at hi
      rcases hi with rfl | rfl <;> simp) (reads_or_else (no_heading fun hh => ?_) (reads_or_else (no_break fun hh => ?_) (reads_or_else (no_item h)
        (reads_or_else (no_quote (fun hh => ?_) (by omega)) (reads_or (reads_indented hi))))))
    · obtain ⟨k, hk, hs⟩ := IsHeading.starts hh
      exact indented_ne hi hk (by decide) (by decide) hs
    · obtain ⟨k, c, hk, hc, hs⟩ := IsBreak.starts hh
      exact indented_ne hi hk (mark_ne_at hc) (by rintro rfl; exact absurd hc (by decide)) hs
    · obtain ⟨k, hk, hs⟩ := IsQuote.starts hh
      exact indented_ne hi hk (by decide) (by decide) hs
  | text h0 v h1 h2 h3 h4 h5 i =>
    intro _ d b x hd hl
    exact ⟨_, rfl, reads_else (by simpa using h0) (reads_or_else (no_heading h1) (reads_or_else (no_break h2) (reads_or_else (no_item h3)
      (reads_or_else (no_quote h4 (by omega)) (reads_or_else (no_indented h5) ((reads_inline i hl).bind_last reads_pure))))))⟩

/-- The state of the highlighter in the mode. -/
def Is : Spec.Markdown.Mode → St → Prop
  | .text, x => x.fenced = false ∧ x.comment = false
  | .code c n, x => x.fenced = true ∧ x.fenceChar = c ∧ x.fenceLength = n ∧ x.comment = false ∧ c ∈ b!"`~" ∧ 3 ≤ n
  | .comment, x => x.fenced = false ∧ x.comment = true

theorem is_after (h : Is .text x) (o : Bool) : Is (.after o) (opened x o) := by
  cases o <;> simp_all [Is, Spec.Markdown.Mode.after, opened]

/-- The blocks of a line. -/
def blocks (n : Nat) : HM St Bool :=
  HM.or (expectAtxHeading n) (HM.or (expectThematicBreak n)
      (HM.or (expectFencedCodeOpen n) (HM.or (expectListMarker n)
        (HM.or (expectBlockquote n) (HM.or (expectIndentedCode n)
          (inlineLine n))))))

theorem block_reads (h : Block false a ts m) (hl : OneLine a) (hx : Is .text x) :
    (¬ Visible a ∧ ts = [] ∧ m = .text) ∨ (Visible a ∧ ∃ y, Is m y ∧ Reads env (blocks a.length) x a ts b true y) := by
  cases h with
  | blank h => exact .inl ⟨h, rfl, rfl⟩
  | @emptyHeading _ k n hk hn =>
    have hs := heading_starts (t := []) (k := k) hn.1
    rw [List.append_nil] at hs
    exact .inr ⟨visible_starts hs not_white_hash, x, hx, reads_or (reads_emptyHeading hk hn)⟩
  | heading hk hn hc h i =>
    exact .inr ⟨visible_starts (heading_starts hn.1) not_white_hash, _, is_after hx _, reads_or (reads_heading hk hn hc h i fun c hc => hl c (by simp [hc]))⟩
  | @break_ _ k c t hk hc h three =>
    have hs := mark_starts (k := k) (c := c) (t := t)
    exact .inr ⟨visible_starts hs (mark_facts hc).2, x, hx, reads_or_else (no_heading (not_heading hs (mark_ne_at hc) (mark_facts hc).1))
      (reads_or (reads_break hk hc h three))⟩
  | @fence k n c t hk h =>
    have hs := fence_starts (k := k) h
    have hf := fence_facts h.fence
    exact .inr ⟨visible_starts hs hf.2.2, fenced x c n, by simp [Is, fenced, hx.2, h.long]; simpa using h.fence,
      reads_or_else (no_heading (not_heading hs (fence_ne h.fence) hf.1)) (reads_or_else (no_break (not_break hs (fence_ne h.fence) hf.2.1))
        (reads_or (reads_fence hk h)))⟩
  | @item _ k m' c a ts o h hc hb i =>
    obtain ⟨f, hf, hs⟩ := item_starts (k := k) (c := c) (a := a) h
    have hff := first_facts hf
    exact .inr ⟨visible_starts hs hff.2.2.2, _, is_after hx _, reads_or_else (no_heading (not_heading hs (first_ne hf) hff.1))
      (reads_or_else (no_break hb) (reads_or_else (no_fence (not_fence hs (first_ne hf) hff.2.1) hl)
        (reads_or (reads_item h hc i fun c hc => hl c (by simp [hc])))))⟩
  | @quote _ k t a ts m' hk ht h hb =>
    have hs := quote_starts (k := k) (t := t) (a := a)
    obtain ⟨o, rfl, hr⟩ := quoted_reads (env := env) hb rfl (spaces k ++ b!">" ++ t ++ a).length b x (by simp; omega) fun c hc => hl c (by simp [hc])
    exact .inr ⟨visible_starts hs not_white_quote, _, is_after hx o, reads_or_else (no_heading (not_heading hs (by decide) (by decide)))
      (reads_or_else (no_break (not_break hs (by decide) (by decide))) (reads_or_else (no_fence (not_fence hs (by decide) (by decide)) hl)
        (reads_or_else (no_item (not_item hs (by decide) (by unfold DecDigit; decide))) (reads_or (reads_quote hk ht h hr)))))⟩
  | @indented _ i a hi v h =>
    refine .inr ⟨?_, x, hx, reads_or_else (no_heading fun hh => ?_) (reads_or_else (no_break fun hh => ?_)
      (reads_or_else (no_fence (fun hh => ?_) hl) (reads_or_else (no_item h)
        (reads_or_else (no_quote (fun hh => ?_) (by omega)) (reads_or (reads_indented hi))))))⟩
    · obtain ⟨c, hc, hv⟩ := v rfl
      exact ⟨c, by simp [hc], hv⟩
    · obtain ⟨k, hk, hs⟩ := IsHeading.starts hh
      exact indented_ne hi hk (by decide) (by decide) hs
    · obtain ⟨k, c, hk, hc, hs⟩ := IsBreak.starts hh
      exact indented_ne hi hk (mark_ne_at hc) (by rintro rfl; exact absurd hc (by decide)) hs
    · obtain ⟨k, c, hk, hc, hs⟩ := IsFence.starts hh
      exact indented_ne hi hk (fence_ne hc) (by rintro rfl; exact absurd hc (by decide)) hs
    · obtain ⟨k, hk, hs⟩ := IsQuote.starts hh
      exact indented_ne hi hk (by decide) (by decide) hs
  | text h0 v h1 h2 h3 h4 h5 i =>
    exact .inr ⟨(v rfl).1, _, is_after hx _, reads_or_else (no_heading h1) (reads_or_else (no_break h2) (reads_or_else (no_fence (v rfl).2 hl)
      (reads_or_else (no_item h3) (reads_or_else (no_quote h4 (by omega)) (reads_or_else (no_indented h5) ((reads_inline i hl).bind_last reads_pure))))))⟩

/-! ## Lines -/

theorem isBlank_iff (s : Bytes) : isBlank s = true ↔ ¬ Visible s := by
  unfold isBlank Visible
  rw [List.all_eq_true]
  constructor
  · rintro h ⟨c, hc, hv⟩
    exact hv ((isWhitespace_iff c).1 (h c hc))
  · intro h c hc
    rw [isWhitespace_iff]
    exact Classical.byContradiction fun hv => h ⟨c, hc, hv⟩

theorem reads_block (l : FirstLine (v ++ e ++ b) v e b) (h : Block false v ts m) (hx : Is .text x) :
    ∃ y, Is m y ∧ Reads env consumeBlockLine x (v ++ e) ts b () y := by
  have hm := matchCrlfLine_at l
  have hrem : ((v ++ e) ++ b).take v.length = v := by rw [List.append_assoc, List.take_left]
  rcases block_reads (env := env) (b := e ++ b) h l.content hx with ⟨hv, rfl, rfl⟩ | ⟨hv, y, hy, hr⟩
  · refine ⟨x, hx, ?_⟩
    unfold consumeBlockLine
    refine reads_rem ?_
    simp only [hm, hrem]
    exact reads_this ((isBlank_iff v).2 hv) (reads_advance (by simp))
  · refine ⟨y, hy, ?_⟩
    unfold consumeBlockLine
    refine reads_rem ?_
    simp only [hm, hrem]
    refine reads_else (by rw [isBlank_iff]; simpa using hv) ?_
    have := hr.bind (f := fun _ => (HM.advance e.length : HM St Unit)) (reads_advance (a := e) (b := b) rfl)
    exact this.tokens (by simp [shift])

theorem closing_facts (hk : k ≤ 3) (hc : c ∈ b!"`~") (hn : 3 ≤ n) (ht : ∀ d ∈ t, Blank d) :
    matchLeadSpaces (spaces k ++ copies n c ++ t) = k ∧ runOf c ((spaces k ++ copies n c ++ t).drop k) = n ∧
    (spaces k ++ copies n c ++ t).drop (k + n) = t := by
  obtain ⟨j, rfl⟩ : ∃ j, n = j + 1 := ⟨n - 1, by omega⟩
  refine ⟨lead_of (t := copies (j + 1) c ++ t) (by simp) hk (by simpa [List.replicate_succ] using fence_ne hc), ?_, ?_⟩
  · rw [List.append_assoc, drop_spaces_at]
    refine run_of rfl fun hh => ?_
    have := ht _ (List.mem_of_mem_head? hh)
    exact (fence_facts hc).2.2 (by simp [Blank] at this; rcases this with rfl | rfl <;> (unfold White; decide))
  · exact List.drop_left' (by simp [spaces])

theorem reads_close {mm : Nat} (l : FirstLine (spaces k ++ copies n c ++ t ++ e ++ b) (spaces k ++ copies n c ++ t) e b)
    (hk : k ≤ 3) (hn : mm ≤ n) (ht : ∀ d ∈ t, Blank d) (hx : Is (.code c mm) x) :
    ∃ y, Is .text y ∧ Reads env consumeFencedLine x (spaces k ++ copies n c ++ t ++ e) [⟨k, n, .string_delim⟩] b () y := by
  obtain ⟨x1, rfl, rfl, x4, x5, x6⟩ := hx
  have hm := matchCrlfLine_at l
  have hrem : ((spaces k ++ copies n x.fenceChar ++ t ++ e) ++ b).take (spaces k ++ copies n x.fenceChar ++ t).length = spaces k ++ copies n x.fenceChar ++ t := by
    rw [List.append_assoc _ e b, List.take_left]
  obtain ⟨h1, h2, h3⟩ := closing_facts (n := n) hk x5 (by omega) ht
  refine ⟨{ x with fenced := false }, ⟨rfl, x4⟩, ?_⟩
  unfold consumeFencedLine
  refine reads_rem (reads_get ?_)
  simp only [hm, hrem, h1, h2, h3]
  refine reads_this ⟨hn, ?_⟩ ?_
  · rw [List.all_eq_true]
    exact fun d hd => (blank_iff_at d).2 (ht d hd)
  · have : Reads env (do
        HM.advance k
        HM.emitAdv n .string_delim
        HM.advance ((spaces k ++ copies n x.fenceChar ++ t).length - k - n)
        HM.advance e.length : HM St Unit) { x with fenced := false } (spaces k ++ (copies n x.fenceChar ++ (t ++ e)))
          ([] ++ shift (spaces k).length ([⟨0, n, .string_delim⟩] ++ shift (copies n x.fenceChar).length ([] ++ shift t.length []))) b ()
          { x with fenced := false } :=
      (reads_advance (by simp [spaces])).bind ((reads_emit (by simp) (by simp; omega)).bind ((reads_advance (by simp [spaces])).bind (reads_advance rfl)))
    exact (this.tokens (us := [⟨k, n, .string_delim⟩]) (by simp [shift, spaces])).text (by simp)

theorem reads_code {mm : Nat} (l : FirstLine (v ++ e ++ b) v e b) (h : ¬ IsClosing c mm v) (hx : Is (.code c mm) x) :
    Reads env consumeFencedLine x (v ++ e) (opt 0 v .text_code) b () x := by
  obtain ⟨x1, rfl, rfl, x4, x5, x6⟩ := hx
  have hm := matchCrlfLine_at l
  have hrem : ((v ++ e) ++ b).take v.length = v := by rw [List.append_assoc, List.take_left]
  unfold consumeFencedLine
  refine reads_rem (reads_get ?_)
  simp only [hm, hrem]
  refine reads_else ?_ ?_
  · rintro ⟨h1, h2⟩
    apply h
    have h3 := lead_split_at v
    have h4 := (lead_le v).1
    generalize matchLeadSpaces v = k at *
    obtain ⟨w, h5, h6⟩ := run_split x.fenceChar (v.drop k)
    generalize runOf x.fenceChar (v.drop k) = n at *
    refine ⟨k, n, w, h4, h1, by rw [h3, h5]; simp, ?_⟩
    rw [← List.drop_drop, h5, List.drop_left' (by simp), List.all_eq_true] at h2
    exact fun d hd => (blank_iff_at d).1 (h2 d hd)
  · have := (reads_emitIf (env := env) (x := x) (a := v) (b := e ++ b) (n := v.length) (ty := .text_code) rfl).bind
      (f := fun _ => (HM.advance e.length : HM St Unit)) (reads_advance (a := e) (b := b) rfl)
    exact this.tokens (by simp [shift])

theorem reads_commentLine (l : FirstLine (v ++ e ++ b) v e b) (h : ∀ k, ¬ OccursAt b!"-->" v k) :
    Reads env consumeCommentLine x (v ++ e) (opt 0 v .comment) b () x := by
  have hm := matchCrlfLine_at l
  have hrem : ((v ++ e) ++ b).take v.length = v := by rw [List.append_assoc, List.take_left]
  unfold consumeCommentLine
  refine reads_rem ?_
  have hf : findSub b!"-->" v = none := by
    have := findSub_spec b!"-->" v
    split at this
    · exact absurd this.1 (h _)
    · assumption
  simp only [hm, hrem, hf]
  have := (reads_emitIf (env := env) (x := x) (a := v) (b := e ++ b) (n := v.length) (ty := .comment) rfl).bind
      (f := fun _ => (HM.advance e.length : HM St Unit)) (reads_advance (a := e) (b := b) rfl)
  exact this.tokens (by simp [shift])

theorem reads_endComment {u : Bytes} {o : Bool} (l : FirstLine (u ++ b!"-->" ++ a ++ e ++ b) (u ++ b!"-->" ++ a) e b)
    (first : ∀ k, OccursAt b!"-->" (u ++ b!"-->" ++ a) k → u.length ≤ k) (i : Inline false c!">" a ts o) (hx : Is .comment x) :
    ∃ y, Is (.after o) y ∧ Reads env consumeCommentLine x (u ++ b!"-->" ++ a ++ e)
        (opt 0 u .comment ++ [⟨u.length, 3, .comment_delim⟩] ++ shift (u.length + 3) ts) b () y := by
  have hm := matchCrlfLine_at l
  have hrem : ((u ++ b!"-->" ++ a ++ e) ++ b).take (u ++ b!"-->" ++ a).length = u ++ b!"-->" ++ a := by rw [List.append_assoc _ e b, List.take_left]
  refine ⟨opened { x with comment := false } o, is_after (x := { x with comment := false }) ⟨hx.1, rfl⟩ o, ?_⟩
  unfold consumeCommentLine
  refine reads_rem ?_
  have hf : findSub b!"-->" (u ++ b!"-->" ++ a) = some u.length := by
    have := findSub_spec b!"-->" (u ++ b!"-->" ++ a)
    split at this
    · rename_i k hk
      have h1 := first k this.1
      have h2 : ¬ u.length < k := fun h => this.2 _ h ⟨u, a, rfl, rfl⟩
      rw [hk, show k = u.length by omega]
    · exact absurd ⟨u, a, rfl, rfl⟩ (this u.length)
  simp only [hm, hrem, hf]
  have hlen : (u ++ b!"-->" ++ a).length - u.length - 3 = a.length := by simp
  rw [hlen]
  have h3 : Reads env (do HM.modify fun x => { x with comment := false }; consumeInline a.length c!">"; HM.advance e.length : HM St Unit) x
      (a ++ e) (ts ++ shift a.length []) b () (opened { x with comment := false } o) := by
    have h4 : Reads env (do consumeInline a.length c!">"; HM.advance e.length : HM St Unit) { x with comment := false }
      (a ++ e) (ts ++ shift a.length []) b () (opened { x with comment := false } o) :=
      (reads_inline i fun c hc => l.content c (by simp [hc])).bind (reads_advance rfl)
    exact h4
  have := (reads_emitIf (env := env) (x := x) (a := u) (b := b!"-->" ++ (a ++ e) ++ b) (n := u.length) (ty := .comment) rfl).bind
      (f := fun _ => (do
        HM.emitAdv 3 .comment_delim
        HM.modify fun x => { x with comment := false }
        consumeInline a.length c!">"
        HM.advance e.length : HM St Unit))
      ((reads_emit (a := b!"-->") (n := 3) (ty := .comment_delim) (mode := .normal) rfl (by simp)).bind h3)
  refine (this.tokens ?_).text (by simp)
  simp only [shift_append, shift_shift]
  simp [shift]

theorem line_reads (h : Line m a ts b m') (hx : Is m x) : a ≠ [] ∧ ∃ y, Is m' y ∧ Reads env line x a ts b () y := by
  unfold line
  cases h with
  | block l ne h =>
    obtain ⟨y, hy, hr⟩ := reads_block (env := env) l h hx
    exact ⟨ne, y, hy, reads_get (reads_else (by simp [hx.1]) (reads_else (by simp [hx.2]) hr))⟩
  | close l hk hn ht =>
    obtain ⟨y, hy, hr⟩ := reads_close (env := env) l hk hn ht hx
    have := hx.2.2.2.2.2
    exact ⟨by simp; omega, y, hy, reads_get (reads_this (by simp [hx.1]) hr)⟩
  | code l ne h => exact ⟨ne, x, hx, reads_get (reads_this (by simp [hx.1]) (reads_code l h hx))⟩
  | comment l ne h => exact ⟨ne, x, hx, reads_get (reads_else (by simp [hx.1]) (reads_this (by simp [hx.2]) (reads_commentLine l h)))⟩
  | endComment l first i =>
    obtain ⟨y, hy, hr⟩ := reads_endComment (env := env) l first i hx
    exact ⟨by simp, y, hy, reads_get (reads_else (by simp [hx.1]) (reads_this (by simp [hx.2]) hr))⟩

theorem program_reads {src : Bytes} {fuel : Nat} (h : ProgramIn Line m src ts) (hx : Is m x) (hf : src.length < fuel) :
    ∃ y, Reads env (HM.whileNotEof fuel line) x src ts [] () y := by
  unfold HM.whileNotEof
  induction h generalizing fuel x with
  | nil => exact ⟨_, reads_loop_end (by omega) (reads_eof (reads_this rfl reads_pure))⟩
  | @cons m a ts b m' us h h' ih =>
    obtain ⟨h1, y, hy, h2⟩ := line_reads (env := env) h hx
    have hp := List.length_pos_iff.2 h1
    rw [List.length_append] at hf
    obtain ⟨z, hz⟩ := ih (fuel := fuel - 1) hy (by omega)
    refine ⟨z, reads_loop (b := []) (c' := ()) (by omega) ?_ hz⟩
    rw [List.append_nil]
    exact reads_eof (reads_else (by simp [h1]) (h2.bind_last reads_pure))

/-- Markdown documents get exactly the tokens of their lines. -/
theorem C58_markdown : ExactIn highlight (fun _ => Line) .text := by
  intro opts src ts h debug
  obtain ⟨y, hr⟩ := program_reads (env := ⟨debug, opts.seen, src⟩) (x := {}) (fuel := src.length + 1) h ⟨rfl, rfl⟩ (by omega)
  have : Reads ⟨debug, opts.seen, src⟩ program {} src ts [] true y := by
    unfold program
    refine reads_rem ?_
    rw [List.append_nil]
    exact hr.bind_last reads_pure
  obtain ⟨es, rfl, h1⟩ := this
  have h1 := h1 0 [] (by simp)
  simp at h1
  have hz : ∀ e : Emit, Emit.moved 0 e = e := by intro e; simp [Emit.moved]
  rw [show Emit.moved 0 = id from funext hz] at h1
  exact ⟨es, by simp [highlight, HM.run, HM.runAll, h1], rfl⟩

theorem line_lf {v b : Bytes} (h : OneLine v) : FirstLine (v ++ b!"\n" ++ b) v b!"\n" b := by
  refine ⟨rfl, h, ?_⟩
  simp

/-- A document with a heading, a quoted item of a list, and a block of code. -/
example : ProgramIn Line .text b!"# a\n> - `b`\n```\nx\n```\n" [⟨0, 1, .symbol_formatting⟩, ⟨2, 1, .text_heading⟩,
    ⟨4, 1, .symbol_formatting⟩, ⟨6, 1, .symbol_formatting⟩, ⟨8, 1, .string_delim⟩, ⟨9, 1, .text_code⟩, ⟨10, 1, .string_delim⟩,
    ⟨12, 3, .string_delim⟩, ⟨16, 1, .text_code⟩, ⟨18, 3, .string_delim⟩] := by
  have h1 : ∀ u j, b!"a" = u ++ copies j c!"#" → 0 < j → u ≠ [] ∧ u.getLast? ≠ some c!" " := by
    intro u j e hj
    have : c!"#" ∈ b!"a" := by rw [e]; simp; omega
    exact absurd this (by decide)
  have h2 : Span 1 b!"b" [] := by
    refine ⟨by decide, by simp, by decide, by decide, by simp, fun a b e => ?_, by simp [OneLine, InLine]⟩
    have : c!"`" ∈ b!"b" := by rw [e]; simp
    exact absurd this (by decide)
  have h3 : ¬ IsBreak b!"- `b`" := by
    rintro ⟨k, c, t, -, hc, e, ht, -⟩
    have : c!"`" ∈ spaces k ++ c :: t := by rw [← e]; simp
    have hn : ¬ c!"`" = c := by rintro rfl; exact absurd hc (by decide)
    simp [spaces, hn] at this
    rcases ht _ this with h | h
    · exact hn h
    · simp [Blank] at h
  have h4 : ¬ IsClosing c!"`" 3 b!"x" := by
    rintro ⟨k, n, t, -, hn, e, -⟩
    have : c!"`" ∈ b!"x" := by rw [e]; simp; omega
    exact absurd this (by decide)
  have i1 : Inline true 0 b!"a" [⟨0, 1, .text_heading⟩] false :=
    .plain (v := b!"a") (a := []) rfl (by simp [Special]) (by simp) .nil
  have b1 : Block false b!"# a" [⟨0, 1, .symbol_formatting⟩, ⟨2, 1, .text_heading⟩] .text :=
    .heading (k := 0) (n := 1) (c := c!" ") (v := b!"a") (t := spaces 0) (by decide) (by decide) (by simp [Blank])
      (.plain (by decide) h1) i1
  have i2 : Inline false 0 b!"`b`" [⟨0, 1, .string_delim⟩, ⟨1, 1, .text_code⟩, ⟨2, 1, .string_delim⟩] false :=
    .code (n := 1) (v := b!"b") (a := []) h2 .nil
  have b2 : Block false b!"> - `b`" [⟨0, 1, .symbol_formatting⟩, ⟨2, 1, .symbol_formatting⟩, ⟨4, 1, .string_delim⟩, ⟨5, 1, .text_code⟩,
      ⟨6, 1, .string_delim⟩] .text :=
    .quote (k := 0) (t := b!" ") (a := b!"- `b`") (by decide) (by decide) (by simp)
      (.item (k := 0) (m := b!"-") (c := c!" ") (a := b!"`b`") (.bullet (by decide)) (by simp [Blank]) h3 i2)
  have b3 : Block false b!"```" [⟨0, 3, .string_delim⟩] (.code c!"`" 3) :=
    .fence (k := 0) (n := 3) (c := c!"`") (t := []) (by decide) ⟨by decide, by decide, by simp, by simp, by simp [OneLine]⟩
  have p5 : ProgramIn Line (.code c!"`" 3) b!"```\n" [⟨0, 3, .string_delim⟩] :=
    .cons (b := []) (Line.close (k := 0) (n := 3) (c := c!"`") (t := []) (line_lf (v := b!"```") (by simp [OneLine, InLine]))
      (by decide) (by decide) (by simp)) .nil
  have p4 : ProgramIn Line (.code c!"`" 3) b!"x\n```\n" [⟨0, 1, .text_code⟩, ⟨2, 3, .string_delim⟩] :=
    .cons (Line.code (v := b!"x") (line_lf (by simp [OneLine, InLine])) (by simp) h4) p5
  have p3 := ProgramIn.cons (Line.block (v := b!"```") (b := b!"x\n```\n") (line_lf (by simp [OneLine, InLine])) (by simp) b3) p4
  have p2 := ProgramIn.cons (Line.block (v := b!"> - `b`") (line_lf (by simp [OneLine, InLine])) (by simp) b2) p3
  exact .cons (a := b!"# a\n") (Line.block (v := b!"# a") (line_lf (by simp [OneLine, InLine])) (by simp) b1) p2

end Ulight.Markdown
