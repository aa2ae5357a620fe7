import Verif.Props.SplitEbnf

/-!
# Tokens and characters

For CSS, Markdown, diffs, EBNF and plain text, the tokens of well-formed UTF-8 consist of whole characters.  In all
other languages there is text of which a token has a part of a character.
-/

namespace Ulight

open Spec Utf8

/-! ## Where characters are split -/

/-- For each language, a text with a character outside of ASCII that is split. -/
def splitText (lang : Nat) : Bytes :=
  if lang = Lang.tex ∨ lang = Lang.latex then [0x5C, 0xC3, 0xA9]
  else if lang = Lang.bash then [0x5C, 0xC3, 0xA9]
  else if lang = Lang.json ∨ lang = Lang.jsonc ∨ lang = Lang.python then b!"\"\\u123" ++ [0xC3, 0xA9] ++ b!"\""
  else if lang = Lang.c ∨ lang = Lang.cpp ∨ lang = Lang.javascript ∨ lang = Lang.typescript then
    [0x22, 0x5C, 0xC3, 0xA9, 0x22]
  else if lang = Lang.kotlin then [0x40, 0x5B, 0xE2, 0x82, 0xAC]
  else if lang = Lang.rust then [0x22, 0x5C, 0x78, 0x31, 0xC3, 0xA9, 0x22]
  else if lang = Lang.xml then [0x3C, 0xC3, 0x97, 0x3E]
  else if lang = Lang.html then [0x3C, 0x2F, 0x61, 0x20, 0xC3, 0xA9, 0x3E]
  else if lang = Lang.cowel then [0x5C, 0x28, 0xC3, 0x97, 0x29]
  else if lang = Lang.yaml then [0x21, 0xC3, 0xA9]
  else if lang = Lang.java then [0x27, 0xC3, 0xA9, 0x27, 0x3B]
  else if lang = Lang.llvm then [0x22, 0x5C, 0x31, 0xC3, 0xA9]
  else if lang = Lang.nasm then [0x60, 0x5C, 0xC3, 0xA9, 0x60]
  else [0xC3, 0xA9]

/-- Whether a text is well-formed, as a function. -/
def isText (s : Bytes) : Bool := match isValid s with
  | .ok none => true
  | _ => false

theorem isText_iff (s : Bytes) : isText s = true ↔ IsUtf8 s := by
  obtain ⟨r, h1, h2⟩ := C12_is_valid_iff s
  unfold isText
  rw [h1]
  cases r with
  | none => simp [h2.1]
  | some x => simp [← h2]

/-- A token has a part of a character. -/
def split (src : Bytes) (ts : List Token) : Bool := ts.any fun t => !isText ((src.drop t.beg).take t.len)

def splitsText (lang : Nat) : Bool :=
  isText (splitText lang) &&
  match sourceToTokens dispatch true (stateFor lang (splitText lang)) with
  | .ok (.ok, bs, _) => split (splitText lang) bs.flatten
  | _ => false

theorem splitsText_all : ∀ l, l < 26 → (0 < l ∧ l ≠ Lang.ebnf ∧ l ≠ Lang.css ∧ l ≠ Lang.markdown ∧ l ≠ Lang.diff ∧ l ≠ Lang.txt) →
    splitsText l = true := by decide +kernel

/-- C31 does not hold in these languages: for each, there is well-formed text for which a token that is
delivered has a part of a character. -/
theorem C31_split (lang : Nat) (h0 : 0 < lang) (h1 : lang < 26)
    (hl : lang ∉ [Lang.ebnf, Lang.css, Lang.markdown, Lang.diff, Lang.txt]) :
    ∃ src batches st st', IsUtf8 src ∧ st.lang = lang ∧ TokensReady st src ∧
      sourceToTokens dispatch true st = .ok (.ok, batches, st') ∧
      ∃ t ∈ batches.flatten, ¬ IsUtf8 ((src.drop t.beg).take t.len) := by
  simp at hl
  have h := splitsText_all lang h1 ⟨h0, hl⟩
  unfold splitsText at h
  rw [Bool.and_eq_true, isText_iff] at h
  obtain ⟨h2, h3⟩ := h
  split at h3
  · rename_i bs st' he
    simp only [split, List.any_eq_true, Bool.not_eq_true', ← Bool.not_eq_true, isText_iff] at h3
    exact ⟨_, bs, _, st', h2, rfl, stateFor_tokens h0 h1 _ 0, he, h3⟩
  · simp at h3

/-! ## Where they are not -/

theorem wholeToken_glue {may : Emit → Bool} {src : Bytes} {es : List Emit} {ts : List Token} (h : Glued may es ts)
    (hw : ∀ t ∈ es.map Emit.token, WholeToken src t) : ∀ t ∈ ts, WholeToken src t := by
  induction h with
  | nil => simp
  | snoc e _ ih =>
    intro t ht
    simp only [List.mem_append, List.mem_singleton] at ht
    rcases ht with ht | rfl
    · exact ih (fun t ht => hw t (by simp at ht ⊢; exact Or.inl ht)) t ht
    · exact hw _ (by simp [Emit.token])
  | @glue es ts b l e _ hb _ ih =>
    have hw' : ∀ t ∈ es.map Emit.token, WholeToken src t := fun t ht => hw t (by simp at ht ⊢; exact Or.inl ht)
    intro t ht
    simp only [List.mem_append, List.mem_singleton] at ht
    rcases ht with ht | rfl
    · exact ih hw' t (by simp [ht])
    · have h1 := ih hw' ⟨b, l, e.ty⟩ (by simp)
      have h2 := hw ⟨e.beg, e.len, e.ty⟩ (by simp [Emit.token])
      refine ⟨h1.1, ?_, ?_⟩
      · show IsUtf8 ((src.drop b).take (l + e.len))
        rw [List.take_add, List.drop_drop, hb]
        exact isUtf8_append h1.2.1 h2.2.1
      · show IsUtf8 (src.drop (b + (l + e.len)))
        rw [← Nat.add_assoc, hb]
        exact h2.2.2

/-- The first line of well-formed text is well-formed. -/
theorem isUtf8_line {s content term rest : Bytes} (hs : IsUtf8 s) (h : FirstLine s content term rest) :
    IsUtf8 content ∧ IsUtf8 term ∧ IsUtf8 rest := by
  obtain ⟨rfl, _, ht⟩ := h
  have ascii : IsUtf8 term := isUtf8_ascii (by rcases ht with rfl | rfl | ⟨rfl, _⟩ | ⟨rfl, _⟩ <;> simp)
  rcases ht with rfl | rfl | ⟨rfl, _⟩ | ⟨rfl, rfl⟩
  · have := isUtf8_boundary hs (k := content.length) (b := 0x0D) (by simp) (by decide)
    simp only [List.append_assoc, List.take_left, List.drop_left] at this
    exact ⟨this.1, ascii, (isUtf8_cons_iff (.one 0x0A (by decide))).1 ((isUtf8_cons_iff (.one 0x0D (by decide))).1 this.2)⟩
  · have := isUtf8_boundary hs (k := content.length) (b := 0x0A) (by simp) (by decide)
    simp only [List.append_assoc, List.take_left, List.drop_left] at this
    exact ⟨this.1, ascii, (isUtf8_cons_iff (.one 0x0A (by decide))).1 this.2⟩
  · have := isUtf8_boundary hs (k := content.length) (b := 0x0D) (by simp) (by decide)
    simp only [List.append_assoc, List.take_left, List.drop_left] at this
    exact ⟨this.1, ascii, (isUtf8_cons_iff (.one 0x0D (by decide))).1 this.2⟩
  · exact ⟨by simpa using hs, isUtf8_nil, isUtf8_nil⟩

theorem diff_whole {src s : Bytes} {p : Nat} {ts : List Token} (h : DiffTokens p s ts) (hp : IsUtf8 (src.take p))
    (hs : src.drop p = s) (hu : IsUtf8 s) : ∀ t ∈ ts, WholeToken src t := by
  induction h with
  | nil => simp
  | @empty p s term rest ts line ne _ ih =>
    have hl := isUtf8_line hu line
    have e := line.split
    refine ih ?_ ?_ hl.2.2
    · rw [List.take_add, hs, e]
      simpa using isUtf8_append hp hl.2.1
    · rw [← List.drop_drop, hs, e]
      simp
  | @line p s content term rest ty ts line ne kind _ ih =>
    have hl := isUtf8_line hu line
    have e := line.split
    have h1 : src.drop (p + content.length) = term ++ rest := by
      rw [← List.drop_drop, hs, e]
      simp
    intro t ht
    simp only [List.mem_cons] at ht
    rcases ht with rfl | ht
    · refine ⟨hp, ?_, ?_⟩
      · show IsUtf8 ((src.drop p).take content.length)
        rw [hs, e]
        simpa using hl.1
      · show IsUtf8 (src.drop (p + content.length))
        rw [h1]
        exact isUtf8_append hl.2.1 hl.2.2
    · refine ih ?_ ?_ hl.2.2 t ht
      · rw [List.take_add, List.take_add, h1, hs, e]
        simpa using isUtf8_append (isUtf8_append hp hl.1) hl.2.1
      · rw [← List.drop_drop, h1]
        simp

theorem whole_lang {lang : Nat} (hl : lang ∈ [Lang.ebnf, Lang.css, Lang.markdown, Lang.diff, Lang.txt]) (debug : Bool) (opts : Opts)
    (src : Bytes) (hs : Supported debug lang src) (hu : IsUtf8 src) :
    ∃ h es, highlighterOf dispatch lang = some h ∧ Runs h debug opts src true es ∧
      ∀ coal, ∀ t ∈ glueAll coal es, WholeToken src t := by
  simp only [List.mem_cons, List.not_mem_nil, or_false] at hl
  rcases hl with rfl | rfl | rfl | rfl | rfl
  · obtain ⟨es, h1, h2⟩ := Ebnf.C36_ebnf debug opts src
    have := Ebnf.wellFormed h2
    rw [Nat.zero_add] at this
    exact ⟨Ebnf.highlight, es, rfl, ⟨h1, this⟩, fun coal => Ebnf.whole hu h1 coal⟩
  · obtain ⟨es, h1, h2⟩ := Css.C42_css_tokens debug opts src hu
    exact ⟨Css.highlight, es, rfl, ⟨h1, h2.wf.1⟩, fun coal =>
      wholeToken_glue (glueAll_glued coal es) fun t ht => Css.C31_css debug opts src hu true es h1 t ht⟩
  · obtain ⟨es, h1, h2⟩ := Markdown.C53_markdown_tokens debug opts src (hs.markdown rfl)
    obtain ⟨es', h3, h4⟩ := Markdown.C31_markdown_whole debug opts src (hs.markdown rfl) hu
    rw [h1] at h3
    obtain ⟨⟩ := h3
    exact ⟨Markdown.highlight, es, rfl, ⟨h1, h2.wf.1⟩, fun coal => wholeToken_glue (glueAll_glued coal es) h4⟩
  · obtain ⟨es, h1, h2⟩ := Diff.C34_diff debug opts src
    refine ⟨Diff.highlight, es, rfl, ⟨h1, ?_⟩, fun coal =>
      wholeToken_glue (glueAll_glued coal es) (diff_whole h2 isUtf8_nil rfl hu)⟩
    have := Diff.wellFormed h2
    rwa [Nat.zero_add] at this
  · exact ⟨highlightTxt, [], rfl, ⟨rfl, trivial⟩, by simp [glueAll]⟩

/-- C31 holds for EBNF, CSS, Markdown, diffs and plain text: every token of well-formed text that is delivered
begins and ends between characters. -/
theorem C31_whole_partial (debug : Bool) (st : State) (src : Bytes) (hr : TokensReady st src)
    (hl : st.lang ∈ [Lang.ebnf, Lang.css, Lang.markdown, Lang.diff, Lang.txt]) (hs : Supported debug st.lang src)
    (hu : IsUtf8 src) :
    ∃ batches, sourceToTokens dispatch debug st = .ok (.ok, batches, st) ∧
      ∀ t ∈ batches.flatten, IsUtf8 (src.take t.beg) ∧ IsUtf8 ((src.drop t.beg).take t.len) ∧
        IsUtf8 (src.drop (t.beg + t.len)) := by
  obtain ⟨h, es, h1, h2, h3⟩ := whole_lang hl debug (toOptions st.flags) src hs hu
  obtain ⟨bs, h4, h5⟩ := sourceToTokens_run (disp := dispatch) (debug := debug) hr h1 h2.run
  refine ⟨bs, h4, ?_⟩
  rw [h5.1]
  exact h3 _

theorem isUtf8_escape {s : Bytes} (h : IsUtf8 s) : IsUtf8 (escape s) := by
  obtain ⟨cs, hcs, rfl⟩ := h
  induction cs with
  | nil => exact isUtf8_nil
  | cons c cs ih =>
    have he := enc_utf8 (hcs c (by simp))
    have hu : utf8All (c :: cs) = utf8 c ++ utf8All cs := rfl
    rw [hu, escape, List.flatMap_append]
    refine isUtf8_append ?_ (ih fun x hx => hcs x (by simp [hx]))
    by_cases hb : ∀ b ∈ utf8 c, b.toNat < 0x80
    · apply isUtf8_ascii
      intro x hx
      simp only [List.mem_flatMap] at hx
      obtain ⟨b, hb', hx⟩ := hx
      have := hb b hb'
      unfold escapeByte at hx
      repeat' split at hx
      · revert x; decide
      · revert x; decide
      · revert x; decide
      · simp at hx; subst hx; exact this
    · have : ∀ b ∈ utf8 c, 0x80 ≤ b.toNat := by
        generalize utf8 c = p at he hb
        intro b hb'
        cases he with
        | one a h => simp at hb; omega
        | two a b' ha hb1 => simp at hb'; rcases hb' with rfl | rfl <;> omega
        | three a b' d ha hb1 hc =>
          have := isValidSecond_cont hb1
          simp at hb'; rcases hb' with rfl | rfl | rfl <;> omega
        | four a b' d e ha hb1 hc hd =>
          have := isValidSecond_cont hb1
          simp at hb'; rcases hb' with rfl | rfl | rfl | rfl <;> omega
      have hid : (utf8 c).flatMap escapeByte = utf8 c := by
        generalize utf8 c = p at this
        induction p with
        | nil => rfl
        | cons b p ih =>
          have hb1 := this b (by simp)
          rw [List.flatMap_cons, ih fun x hx => this x (by simp [hx])]
          have : escapeByte b = [b] := by
            unfold escapeByte
            rw [if_neg (by rintro rfl; simp at hb1), if_neg (by rintro rfl; simp at hb1), if_neg (by rintro rfl; simp at hb1)]
          rw [this]
          rfl
      rw [hid]
      exact ⟨[c], by simpa using hcs c (by simp), by simp [utf8All]⟩

theorem isUtf8_short (t : HT) : IsUtf8 (shortString t.val) := by
  apply isUtf8_ascii
  have key : ∀ t ∈ allHT, ∀ c ∈ shortString t.val, c.toNat < 0x80 := by decide +kernel
  exact key t (mem_allHT t)

theorem isUtf8_render {tag attr src : Bytes} (ht : IsUtf8 tag) (ha : IsUtf8 attr) (ts : List Token)
    (pos : Nat) (hp : IsUtf8 (src.take pos)) (hd : IsUtf8 (src.drop pos)) (hw : WellFormedFrom src.length pos ts)
    (h : ∀ t ∈ ts, WholeToken src t) : IsUtf8 (render tag attr src pos ts) := by
  induction ts generalizing pos with
  | nil => exact isUtf8_escape hd
  | cons t ts ih =>
    obtain ⟨h1, h2, h3, _, h5⟩ := hw
    obtain ⟨w1, w2, w3⟩ := h t (by simp)
    unfold render
    refine isUtf8_append (isUtf8_append ?_ ?_) (ih _ ?_ w3 h5 fun t ht => h t (by simp [ht]))
    · refine isUtf8_escape (isUtf8_cancel hp ?_)
      unfold slice
      rw [← List.take_add, show pos + (t.beg - pos) = t.beg by omega]
      exact w1
    · have hs : IsUtf8 (slice src t.beg (t.beg + t.len)) := by
        unfold slice
        rwa [Nat.add_sub_cancel_left]
      unfold element
      have l (s : Bytes) (h : ∀ c ∈ s, c.toNat < 0x80) : IsUtf8 s := isUtf8_ascii h
      exact isUtf8_append (isUtf8_append (isUtf8_append (isUtf8_append (isUtf8_append (isUtf8_append (isUtf8_append
        (isUtf8_append (isUtf8_append (isUtf8_append (l _ (by decide)) ht) (l _ (by decide))) ha) (l _ (by decide)))
        (isUtf8_short _)) (l _ (by decide))) (isUtf8_escape hs)) (l _ (by decide))) ht) (l _ (by decide))
    · rw [List.take_add]
      exact isUtf8_append w1 w2

/-- The hypotheses can be met, with characters outside of ASCII. -/
example : ∃ st src, TokensReady st src ∧ st.lang = Lang.diff ∧ IsUtf8 src ∧ src = b!"+" ++ [0xC3, 0xA9] ++ b!"\n-a" ∧
    Supported true st.lang src :=
  ⟨stateFor Lang.diff (b!"+" ++ [0xC3, 0xA9] ++ b!"\n-a"), _, stateFor_tokens (by decide) (by decide) _ 0, rfl,
    (isText_iff _).1 (by decide +kernel), rfl,
    ⟨fun h => absurd h (by decide), fun h => absurd h (by decide), fun h => absurd h (by decide),
     fun h => absurd h (by decide), fun h => absurd h (by decide), fun h => absurd h (by decide),
     fun h => absurd h (by decide), fun h => absurd h (by decide)⟩⟩

/-- So the HTML of well-formed text in these languages is well-formed text. -/
theorem C31_html_is_text_partial (debug : Bool) (st : State) (src tag attr : Bytes) (hr : HtmlReady st src tag attr)
    (hl : st.lang ∈ [Lang.ebnf, Lang.css, Lang.markdown, Lang.diff, Lang.txt]) (hs : Supported debug st.lang src)
    (hu : IsUtf8 src) (ht : IsUtf8 tag) (ha : IsUtf8 attr) :
    ∃ chunks st', sourceToHtml dispatch debug st = .ok (.ok, chunks, st') ∧ IsUtf8 chunks.flatten := by
  obtain ⟨h, es, h1, h2, h3⟩ := whole_lang hl debug (toOptions st.flags) src hs hu
  obtain ⟨cs, st', ts, h4, h5, h6, bs, st'', h7, rfl⟩ := C02_html_is_rendering dispatch debug st src tag attr h es hr h1 h2
  refine ⟨cs, st', h4, ?_⟩
  rw [h5]
  have hr' : TokensReady { st with flushTokens := .user } src :=
    ⟨hr.source, hr.lang_pos, hr.lang_lt, hr.tokenBuf, hr.tokenBufLen, rfl⟩
  obtain ⟨bs', h8, h9⟩ := C31_whole_partial debug _ src hr' hl hs hu
  rw [h7] at h8
  obtain ⟨⟩ := h8
  exact isUtf8_render ht ha _ 0 isUtf8_nil hu h6 h9

end Ulight
