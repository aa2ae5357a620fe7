import Verif.Props.Program.YamlBlocks

/-!
# C58: YAML documents get exactly the tokens of their lines
-/

namespace Ulight.Yaml

open Spec Spec.Yaml

variable {env : HEnv} {x y : St} {a b s t w : Bytes} {ts us vs : List Token}

theorem reads_prefix (h : Skip w us b) : Reads env documentPrefix x w us b () x := by
  unfold documentPrefix
  refine reads_rem (reads_loop_end (by simp) ?_)
  have hn := Skip.next h
  by_cases h0 : b = []
  · subst h0
    exact (reads_whitespace h).bind_last (reads_eof (reads_this rfl reads_pure))
  · refine (reads_whitespace h).bind_last (reads_eof (reads_else (by simpa using h0) ?_))
    have h1 : Reads env expectCommentOrBlank x [] [] b false x := by
      refine (reads_nothing hn).bind_none (a := []) (reads_rem (reads_else (by simpa using h0) (reads_else ?_ (reads_else ?_ reads_pure))))
      · exact head_ne hn
      · rw [List.nil_append, no_break (notFirst_sub hn (by decide))]; simp
    exact h1.bind_none (a := []) reads_pure

theorem no_lines {k : Nat} (h : Lines (.line k) b vs) (hb : b = []) : vs = [] := by
  cases h with
  | nil => rfl
  | @cons _ a ts b y us h h' =>
    have ha : a = [] := by
      simp at hb
      exact hb.1
    cases h with
    | blank he ne => exact absurd ha ne
    | comment => simp at ha
    | entry h =>
      obtain ⟨c, t, rfl, -⟩ := Entry.head h
      simp at ha
    | marker hm => rcases hm with rfl | rfl <;> simp at ha

/-! ## Markers -/

theorem reads_marker {m r e : Bytes} (hm : m = b!"---" ∨ m = b!"...") (hl : OneLine r) (he : Break e b) :
    Reads env marker x (m ++ r ++ e) [⟨0, 3, .symbol_punc⟩] b () x := by
  have h1 : Reads env (HM.emitAdv 3 .symbol_punc : HM St Unit) x m [⟨0, 3, .symbol_punc⟩] ((r ++ e) ++ b) () x :=
    reads_emit (by rcases hm with rfl | rfl <;> rfl) (by rcases hm with rfl | rfl <;> simp)
  have h2 := h1.bind (f := fun _ => skipLine) (reads_skipLine hl he)
  exact (h2.tokens (by simp [shift_empty])).text (by simp)

theorem marker_of {k : Nat} (h : Lines (.line k) b vs) (hm : Marked b) :
    ∃ m r e b' ws, b = m ++ r ++ e ++ b' ∧ vs = [⟨0, 3, .symbol_punc⟩] ++ shift (m ++ r ++ e).length ws ∧ (m = b!"---" ∨ m = b!"...") ∧
      OneLine r ∧ Break e b' ∧ Lines .start b' ws := by
  obtain ⟨c, t, e0, hc⟩ := Marked.head hm
  have hn : NotFirst b!" \t\r\n#%" b := by
    intro d hd
    rw [e0] at hd
    simp at hd
    exact hd ▸ hc
  cases h with
  | nil => simp at e0
  | @cons _ a ts b y us h h' =>
    cases h with
    | blank he ne =>
      obtain ⟨c, h1, h2⟩ := break_head he ne
      rw [← List.head?_eq_getElem?] at h1
      exact absurd (by simp at h2 ⊢; rcases h2 with rfl | rfl <;> simp) (hn c h1)
    | @comment _ k v e _ hv he =>
      refine absurd ?_ (hn (if k = 0 then c!"#" else c!" ") ?_)
      · split <;> decide
      · cases k <;> simp [List.replicate_succ]
    | @entry _ k a ts _ _ h hk =>
      cases k with
      | zero =>
        rcases hm with h | h
        · exact absurd h (hk rfl).1
        · exact absurd h (hk rfl).2
      | succ k => exact absurd (by decide) (hn c!" " (by simp [List.replicate_succ]))
    | @marker _ m r e _ hk hl he => exact ⟨m, r, e, b, us, rfl, rfl, hk, hl, he, h'⟩

/-- The text after whitespace at the beginning of a document. -/
def AtBody (s : Bytes) (ts : List Token) : Prop :=
  NotFirst b!"%" s ∧ Lines (.line 64) s ts ∨
  ∃ a us b vs, s = a ++ b ∧ ts = us ++ shift a.length vs ∧ Directive a us b ∧ Lines .directives b vs

theorem start_of (h : Lines .start s ts) :
    ∃ w us b vs, s = w ++ b ∧ ts = us ++ shift w.length vs ∧ Skip w us b ∧ AtBody b vs := by
  cases h with
  | nil => exact ⟨[], [], [], [], rfl, rfl, .nil (by simp [NotFirst]), .inl ⟨by simp [NotFirst], .nil⟩⟩
  | @cons _ a ts b y us h h' =>
    cases h with
    | start sk hp => exact ⟨a, ts, b, us, rfl, rfl, sk, .inl ⟨hp, h'⟩⟩
    | @directive w us' a ts' _ sk hd =>
      exact ⟨w, us', a ++ b, ts' ++ shift a.length us, by simp, by same, sk, .inr ⟨a, ts', b, us, rfl, rfl, hd, h'⟩⟩

theorem to_start (h : AtBody b vs) (hn : NotFirst b!" \t\r\n#" b) : Lines .start b vs := by
  rcases h with ⟨hp, h⟩ | ⟨a, us, b, vs, rfl, rfl, hd, h⟩
  · have := ProgramIn.cons (Element.start (Skip.nil hn) hp) h
    simpa [shift_none] using this
  · have := ProgramIn.cons (Element.directive (Skip.nil hn) hd) h
    simpa [shift_none] using this

theorem Directive.head (h : Directive a ts b) : ∃ t, a = c!"%" :: t := by
  cases h
  exact ⟨_, rfl⟩

theorem AtBody.lines (h : AtBody s ts) (hs : s.head? ≠ some c!"%") : NotFirst b!"%" s ∧ Lines (.line 64) s ts := by
  rcases h with h | ⟨a, us, b, vs, rfl, rfl, hd, -⟩
  · exact h
  · obtain ⟨t, rfl⟩ := Directive.head hd
    exact absurd rfl hs

theorem marked_start {k : Nat} (h : Lines (.line k) b vs) (hm : Marked b) : Lines .start b vs := by
  obtain ⟨m, r, e, b', ws, rfl, rfl, hm', hl, he, h'⟩ := marker_of h hm
  obtain ⟨c, t, e', hc⟩ := Marked.head hm
  refine to_start (.inl ⟨?_, .cons (.marker hm' hl he) h'⟩) ?_
  · intro d hd h
    rw [e'] at hd
    simp at hd hc h
    subst hd
    grind
  · intro d hd h
    rw [e'] at hd
    simp at hd hc h
    subst hd
    grind

theorem starts_marked (h : ¬ Marked b) : startsWith b b!"---" = false ∧ startsWith b b!"..." = false :=
  ⟨starts_prefix fun h' => h (.inl h'), starts_prefix fun h' => h (.inr h')⟩

theorem indent_marked (h : Marked b) : currentIndent b = 0 := by
  obtain ⟨c, t, rfl, hc⟩ := Marked.head h
  simp at hc
  exact currentIndent_solid (by simp [hc])

theorem starts_three {m : Bytes} (hm : m = b!"---" ∨ m = b!"...") : startsWith (m ++ t) b!"..." = decide (m = b!"...") ∧
    startsWith (m ++ t) b!"---" = decide (m = b!"---") := by
  rcases hm with rfl | rfl
  · exact ⟨rfl, rfl⟩
  · exact ⟨rfl, rfl⟩

/-! ## Directives -/

theorem parameterStep_end (hb : LineEnd b) : Reads env parameterStep x [] [] b (.inr ()) x := by
  cases b with
  | nil => exact reads_rem reads_pure
  | cons c t =>
    refine reads_rem (reads_this ?_ reads_pure)
    intro h0
    exact hb c rfl (matchLineBreak_eq.1 h0 c rfl)

theorem parameters_loop {n : Nat} (h : Parameters a ts) (hb : LineEnd b) (hn : a.length < n) :
    Reads env (HM.loop n (fun _ => parameterStep) ()) x a ts b () x := by
  induction h generalizing n with
  | nil => exact reads_loop_end (by omega) (parameterStep_end hb)
  | @blank c a ts hc rest ih =>
    have h1 : Reads env parameterStep x [c] [] (a ++ b) (.inl ()) x := by
      refine reads_rem (reads_else ?_ (reads_this (isWs_blank'.2 hc) ((reads_advance rfl).bind_last reads_pure)))
      rw [Decidable.not_not]
      refine no_break ?_
      rintro d ⟨⟩ hm
      have : ∀ d ∈ b!"\r\n", ¬ Blank d := by simp [Blank]
      exact this _ hm hc
    simp only [List.length_cons] at hn
    exact (reads_loop (c := ()) (c' := ()) (m := n) (by omega) h1 (ih (n := n - 1) (by omega))).tokens rfl
  | @char c a ts hc hb' rest ih =>
    have h0 : Reads env (HM.emitAdv 1 .string : HM St Unit) x [c] [⟨0, 1, .string⟩] (a ++ b) () x := reads_emit (by simp) (by simp)
    have h1 : Reads env parameterStep x [c] [⟨0, 1, .string⟩] (a ++ b) (.inl ()) x := by
      refine reads_rem (reads_else ?_ (reads_else (fun h => hb' (isWs_blank'.1 h)) (h0.bind_last reads_pure)))
      rw [Decidable.not_not]
      refine no_break ?_
      rintro d ⟨⟩ hm
      have : ∀ d ∈ b!"\r\n", ¬ InLine d := by simp [InLine]
      exact this _ hm hc
    simp only [List.length_cons] at hn
    exact (reads_loop (c := ()) (c' := ()) (m := n) (by omega) h1 (ih (n := n - 1) (by omega))).tokens rfl

/-- The parts of `directiveLine` after the name. -/
def directiveTail : HM St Unit := do
  HM.loop ((← HM.rem).length + 1) (fun _ => parameterStep) ()
  skipLine

/-- The parts of `directiveLine` after the percent sign. -/
def directiveRest : HM St Unit := do
  HM.emitAdvIf (directiveName (← HM.rem)) .name_macro
  directiveTail

theorem reads_directive (h : Directive a ts b) : Reads env directiveLine x a ts b () x := by
  cases h with
  | @line v a ts e b hv first h he =>
    have h1 : Reads env directiveTail x (a ++ e) ts b () x := by
      refine reads_rem ?_
      have h2 := parameters_loop (env := env) (x := x) (b := ([] ++ e) ++ b) (n := (a ++ e ++ b).length + 1) h (by simpa using Break.end he) (by simp; omega)
      have h3 := h2.bind (f := fun _ => skipLine) (reads_skipLine (by simp [OneLine]) he)
      exact (h3.tokens (by simp [shift_empty])).text (by simp)
    have h4 : Reads env directiveRest x (v ++ (a ++ e)) (opt 0 v .name_macro ++ shift v.length ts) b () x := by
      refine reads_rem ?_
      refine (reads_emitIf ?_).bind h1
      refine Longest.unique (directiveName_longest _).1 ?_ (directiveName_longest _).2 (by simp)
      rw [List.append_assoc]
      refine longest_of hv ?_
      intro c hc hi
      cases a with
      | nil => exact Break.end he c (by simpa using hc) hi.1
      | cons d t => simp at hc; subst hc; exact hi.2 (first _ rfl)
    have h5 : Reads env directiveLine x (b!"%" ++ (v ++ (a ++ e)))
        ([⟨0, 1, .name_macro_delim⟩] ++ shift 1 (opt 0 v .name_macro ++ shift v.length ts)) b () x := by
      refine reads_rem (reads_check rfl ?_)
      exact (reads_emit (env := env) (x := x) (n := 1) (ty := .name_macro_delim) (mode := .normal) (a := b!"%") rfl (by simp)).bind
        (f := fun _ => directiveRest) h4
    exact (h5.tokens (by rw [shift_append, shift_opt', shift_shift]; simp)).text (by simp)

/-- The text after directives. -/
def AfterDirectives (s : Bytes) (ts : List Token) : Prop :=
  NotFirst b!" \t\r\n#%" s ∧ ((¬ b!"---" <+: s ∧ Lines (.line 64) s ts) ∨
    ∃ r e b vs, s = b!"---" ++ r ++ e ++ b ∧ ts = [⟨0, 3, .symbol_punc⟩] ++ shift (b!"---" ++ r ++ e).length vs ∧ OneLine r ∧ Break e b ∧ Lines .contents b vs)

theorem not_percent (h : NotFirst b!"%" s) : startsWith s b!"%" = false :=
  starts_prefix (by rintro ⟨t, e⟩; exact h c!"%" (by rw [← e]; rfl) (by decide))

theorem directives_loop {n : Nat} (h : Lines .directives s ts) (hn : s.length < n) :
    ∃ a us b vs, s = a ++ b ∧ ts = us ++ shift a.length vs ∧ AfterDirectives b vs ∧
      Reads env (HM.loop n (fun _ => directiveStep) ()) x a us b () x := by
  have last : ∀ {m w us b}, 0 < m → Skip w us b → NotFirst b!"%" b → Reads env (HM.loop m (fun _ => directiveStep) ()) x w us b () x := by
    intro m w us b hm sk hp
    refine reads_loop_end hm ((reads_whitespace sk).bind_last (reads_rem (reads_else ?_ reads_pure)))
    rw [List.nil_append, not_percent hp]
    simp
  have both : ∀ {b}, NotFirst b!" \t\r\n#" b → NotFirst b!"%" b → NotFirst b!" \t\r\n#%" b := by
    intro b h1 h2 c hc hm
    have h1 := h1 c hc
    have h2 := h2 c hc
    simp at h1 h2 hm
    grind
  induction n generalizing s ts with
  | zero => omega
  | succ n ih =>
    cases h with
    | nil => exact ⟨[], [], [], [], rfl, rfl, ⟨by simp [NotFirst], .inl ⟨by simp, .nil⟩⟩, last (by omega) (.nil (by simp [NotFirst])) (by simp [NotFirst])⟩
    | @cons _ a ts b y us h h' =>
      cases h with
      | @another w us' a ts' _ sk hd =>
        obtain ⟨t, ht⟩ := Directive.head hd
        simp only [List.length_append] at hn
        obtain ⟨a2, us2, b2, vs2, rfl, rfl, h1, h2⟩ := ih h' (by rw [ht] at hn; simp at hn; omega)
        refine ⟨w ++ a ++ a2, _, b2, vs2, by simp, ?_, h1, reads_loop (by omega) ((reads_whitespace sk).bind
          (reads_rem (reads_this ?_ ((reads_directive hd).bind_last reads_pure)))) h2⟩
        · same
        · rw [ht]; rfl
      | @begins w us' r e _ sk hl he =>
        have hp : NotFirst b!"%" (b!"---" ++ r ++ e ++ b) := by simp [NotFirst]
        exact ⟨w, us', b!"---" ++ r ++ e ++ b, _, by simp, by same, ⟨both (Skip.next sk) hp, .inr ⟨r, e, b, us, rfl, rfl, hl, he, h'⟩⟩,
          last (by omega) sk hp⟩
      | omitted sk hp hm => exact ⟨a, ts, b, us, rfl, rfl, ⟨both (Skip.next sk) hp, .inl ⟨hm, h'⟩⟩, last (by omega) sk hp⟩

theorem contents_of (h : Lines .contents s ts) : ∃ w us b vs, s = w ++ b ∧ ts = us ++ shift w.length vs ∧ Skip w us b ∧ Lines (.line 64) b vs := by
  cases h with
  | nil => exact ⟨[], [], [], [], rfl, rfl, .nil (by simp [NotFirst]), .nil⟩
  | @cons _ a ts b y us h h' =>
    cases h with
    | contents sk => exact ⟨a, ts, b, us, rfl, rfl, sk, h'⟩

/-- The end of `documentDirectives`. -/
def directivesEnd : HM St Unit := do
  whitespace
  if startsWith (← HM.rem) b!"---" then do
    marker
    whitespace
  else pure ()

theorem directivesEnd_lines (h : AfterDirectives s ts) :
    ∃ a us b vs, s = a ++ b ∧ ts = us ++ shift a.length vs ∧ Lines (.line 64) b vs ∧ Reads env directivesEnd x a us b () x := by
  obtain ⟨hn, h⟩ := h
  have h0 := reads_nothing (env := env) (x := x) (notFirst_sub hn (ys := b!" \t\r\n#") (by decide))
  rcases h with ⟨hm, h⟩ | ⟨r, e, b, vs, rfl, rfl, hl, he, h⟩
  · exact ⟨[], [], s, ts, rfl, by simp [shift_none], h,
      h0.bind_none (a := []) (reads_rem (reads_else (by rw [List.nil_append, starts_prefix hm]; simp) reads_pure))⟩
  · obtain ⟨w, us, b, vs, rfl, rfl, sk, h⟩ := contents_of h
    refine ⟨b!"---" ++ r ++ e ++ w, _, b, vs, by simp, ?_, h, Reads.bind_none (a := b!"---" ++ r ++ e ++ w) (by simpa using h0) (reads_rem (reads_this rfl
      ((reads_marker (.inl rfl) hl he).bind (reads_whitespace sk))))⟩
    same

theorem documentDirectives_lines (hd : Directive a us b) (h : Lines .directives b vs) :
    ∃ a' us' b' vs', a ++ b = a' ++ b' ∧ us ++ shift a.length vs = us' ++ shift a'.length vs' ∧ Lines (.line 64) b' vs' ∧
      Reads env (documentDirectives 0) x a' us' b' () x := by
  obtain ⟨t, rfl⟩ := Directive.head hd
  have h0 : Lines .directives (c!"%" :: t ++ b) (us ++ shift (c!"%" :: t).length vs) := by
    have := ProgramIn.cons (Element.another (Skip.nil (by simp [NotFirst])) hd) h
    simpa [shift_none] using this
  obtain ⟨a1, us1, b1, vs1, e1, e2, h1, h2⟩ := directives_loop (env := env) (x := x) h0 (Nat.lt_succ_self _)
  obtain ⟨a2, us2, b2, vs2, rfl, rfl, h3, h4⟩ := directivesEnd_lines (env := env) (x := x) h1
  have h5 : Reads env directives x a1 us1 (a2 ++ b2) () x := reads_rem (by rw [← e1]; exact h2)
  refine ⟨a1 ++ a2, us1 ++ shift a1.length us2, b2, vs2, by rw [e1]; simp, by rw [e2]; same, h3, reads_rem (reads_this ?_ ?_)⟩
  · rw [List.append_assoc, ← e1]
    rfl
  · exact h5.bind (f := fun _ => directivesEnd) h4

/-! ## Documents -/

/-- The last part of `document`. -/
def documentBlock (indent : Nat) : HM St Unit := do
  if ← HM.eof then pure ()
  else do
    documentDirectives indent
    if ← HM.eof then pure () else blockNode 0 0

/-- The part of `document` after whitespace. -/
def documentRest : HM St Unit := do
  if ← HM.eof then pure ()
  else do
    let indent := currentIndent (← HM.rem)
    documentStart
    documentBlock indent

/-- The block of a document, unless the text ends. -/
theorem body_lines (h : Lines (.line 64) s ts) :
    ∃ a us b vs k y, s = a ++ b ∧ ts = us ++ shift a.length vs ∧ Lines (.line k) b vs ∧ (b = [] ∨ Marked b) ∧
      Reads env (do if ← HM.eof then pure () else blockNode 0 0) [] a us b () y := by
  by_cases ne : s = []
  · subst ne
    have := no_lines h rfl
    subst this
    exact ⟨[], [], [], [], 64, [], rfl, rfl, h, .inl rfl, reads_eof (reads_this rfl reads_pure)⟩
  · obtain ⟨a, us, b, vs, k, y, rfl, rfl, h1, -, h3, h4⟩ := block_lines (env := env) (x := []) (i := 0) (o := 0) (B := 64) h (by simp) (by omega)
      (Nat.lt_succ_self _)
    exact ⟨a, us, b, vs, k, y, rfl, rfl, h1, h3 rfl, reads_eof (reads_else (by simpa using ne) (reads_rem h4))⟩

theorem documentBlock_lines {indent : Nat} (h : AtBody s ts) (hi : s.head? = some c!"%" → indent = 0) :
    ∃ a us b vs k y, s = a ++ b ∧ ts = us ++ shift a.length vs ∧ Lines (.line k) b vs ∧ (b = [] ∨ Marked b) ∧
      Reads env (documentBlock indent) [] a us b () y := by
  rcases h with ⟨hp, h⟩ | ⟨a, us, b, vs, rfl, rfl, hd, h⟩
  · by_cases ne : s = []
    · subst ne
      have := no_lines h rfl
      subst this
      exact ⟨[], [], [], [], 64, [], rfl, rfl, h, .inl rfl, reads_eof (reads_this rfl reads_pure)⟩
    · obtain ⟨a, us, b, vs, k, y, rfl, rfl, h1, h3, h4⟩ := body_lines (env := env) h
      refine ⟨a, us, b, vs, k, y, rfl, rfl, h1, h3, ?_⟩
      have he : ¬ (a ++ b).isEmpty = true := by simpa using ne
      have hd : Reads env (documentDirectives indent) [] [] [] (a ++ b) () [] := by
        unfold documentDirectives
        refine reads_rem (reads_else ?_ reads_pure)
        rw [List.nil_append, not_percent hp]
        simp
      exact reads_eof (reads_else he (hd.bind_none h4))
  · obtain ⟨t, rfl⟩ := Directive.head hd
    have := hi rfl
    subst this
    obtain ⟨a1, us1, b1, vs1, e1, e2, h1, h2⟩ := documentDirectives_lines (env := env) (x := []) hd h
    obtain ⟨a, us, b, vs, k, y, rfl, rfl, h3, h4, h5⟩ := body_lines (env := env) h1
    refine ⟨a1 ++ a, us1 ++ shift a1.length us, b, vs, k, y, by rw [e1]; simp, by rw [e2]; same, h3, h4, reads_eof (reads_else ?_ (h2.bind h5))⟩
    rw [List.append_assoc, ← e1]
    simp

theorem documentRest_lines (h : AtBody s ts) (hn : NotFirst b!" \t\r\n#" s) :
    ∃ a us b vs k y, s = a ++ b ∧ ts = us ++ shift a.length vs ∧ Lines (.line k) b vs ∧ (b = [] ∨ Marked b) ∧ Reads env documentRest [] a us b () y := by
  by_cases ne : s = []
  · subst ne
    have h := (AtBody.lines h (by simp)).2
    have := no_lines h rfl
    subst this
    exact ⟨[], [], [], [], 64, [], rfl, rfl, h, .inl rfl, reads_eof (reads_this rfl reads_pure)⟩
  by_cases hm : b!"---" <+: s
  · have h := (AtBody.lines h (by obtain ⟨t, rfl⟩ := hm; simp)).2
    obtain ⟨m, r, e, b', ws, rfl, rfl, hm', hl, he, h'⟩ := marker_of h (.inl hm)
    obtain ⟨w, us, b, vs, rfl, rfl, sk, h2⟩ := start_of h'
    obtain ⟨a3, us3, b3, vs3, k, y, rfl, rfl, h3, h4, h5⟩ := documentBlock_lines (env := env) (indent := 0) h2 (fun _ => rfl)
    have hs : Reads env documentStart [] (m ++ r ++ e ++ w) ([⟨0, 3, .symbol_punc⟩] ++ shift (m ++ r ++ e).length us) (a3 ++ b3) () [] := by
      refine reads_rem (reads_this ?_ ?_)
      · have h6 := startsWith_iff.2 (hm.imp fun _ => Eq.symm)
        have h7 := indent_marked (.inl hm)
        rw [show m ++ r ++ e ++ w ++ (a3 ++ b3) = m ++ r ++ e ++ (w ++ (a3 ++ b3)) by simp, h6, h7]
        rfl
      · exact (reads_marker hm' hl he).bind (reads_whitespace sk)
    have h8 := (hs.bind (f := fun _ => documentBlock 0) h5)
    refine ⟨m ++ r ++ e ++ w ++ a3, [⟨0, 3, .symbol_punc⟩] ++ shift (m ++ r ++ e).length us ++ shift (m ++ r ++ e ++ w).length us3, b3,
      vs3, k, y, by simp, ?_, h3, h4, reads_eof (reads_else ?_ (reads_rem ?_))⟩
    rotate_left 2
    · have h7 := indent_marked (.inl hm)
      rw [show m ++ r ++ e ++ w ++ a3 ++ b3 = m ++ r ++ e ++ (w ++ (a3 ++ b3)) by simp, h7]
      exact h8
    · same
    · rcases hm' with rfl | rfl <;> simp
  · obtain ⟨a, us, b, vs, k, y, rfl, rfl, h3, h4, h5⟩ := documentBlock_lines (env := env) (indent := currentIndent s) h (by
      intro hh
      obtain ⟨t, rfl⟩ : ∃ t, s = c!"%" :: t := by
        cases s with
        | nil => cases hh
        | cons c t => cases hh; exact ⟨t, rfl⟩
      exact currentIndent_solid (by simp))
    refine ⟨a, us, b, vs, k, y, rfl, rfl, h3, h4, reads_eof (reads_else (by simpa using ne) (reads_rem ?_))⟩
    have hs : Reads env documentStart [] [] [] (a ++ b) () [] :=
      reads_rem (reads_else (by rw [List.nil_append, starts_prefix hm]; simp) reads_pure)
    exact hs.bind_none h5

theorem document_lines (h : Lines .start s ts) :
    ∃ a us b vs k y, s = a ++ b ∧ ts = us ++ shift a.length vs ∧ Lines (.line k) b vs ∧ (b = [] ∨ Marked b) ∧ Reads env document x a us b () y := by
  obtain ⟨w, us, b, vs, rfl, rfl, sk, hl⟩ := start_of h
  obtain ⟨a', us', b', vs', k, y, rfl, rfl, h3, h4, h5⟩ := documentRest_lines (env := env) hl (Skip.next sk)
  have h6 : Reads env (do whitespace; documentRest) [] (w ++ a') (us ++ shift w.length us') b' () y := (reads_whitespace sk).bind h5
  exact ⟨w ++ a', us ++ shift w.length us', b', vs', k, y, by simp, by same, h3, h4, h6⟩

/-! ## Ends of documents -/

theorem suffix_loop {n : Nat} (h : Lines .start s ts) (hn : s.length < n) :
    ∃ a us b vs, s = a ++ b ∧ ts = us ++ shift a.length vs ∧ Lines .start b vs ∧ (Marked s → b.length < s.length) ∧
      Reads env (HM.loop n (fun _ => suffixStep) ()) x a us b () x := by
  induction n generalizing s ts with
  | zero => omega
  | succ n ih =>
    obtain ⟨w, us, b, vs, rfl, rfl, sk, hl⟩ := start_of h
    have hw : Marked (w ++ b) → w = [] := by
      intro hm
      obtain ⟨c, t, e, hc⟩ := Marked.head hm
      cases sk with
      | nil => rfl
      | white hc' _ =>
        simp at e
        rw [e.1] at hc'
        unfold White at hc'
        simp at hc' hc
        grind
      | comment => simp at e; rw [← e.1] at hc; exact absurd (by decide) hc
    by_cases hm : Marked b
    · have hl := (AtBody.lines hl (by
        obtain ⟨c, t, e, hc⟩ := Marked.head hm
        rw [e]
        rintro ⟨⟩
        exact hc (by decide))).2
      obtain ⟨m, r, e, b', ws, rfl, rfl, hm', hl', he, h'⟩ := marker_of hl hm
      have h3 := starts_three (t := r ++ e ++ b') hm'
      have h7 := indent_marked hm
      simp only [List.append_assoc] at h7 hm
      by_cases hd : m = b!"..."
      · simp only [List.length_append] at hn
        have hml : m.length = 3 := by rw [hd]; rfl
        obtain ⟨a2, us2, b2, vs2, rfl, rfl, h4, h5, h6⟩ := ih h' (by omega)
        have h8 : Reads env suffixStep x (w ++ (m ++ r ++ e)) (us ++ shift w.length [⟨0, 3, .symbol_punc⟩]) (a2 ++ b2) (.inl ()) x := by
          refine (reads_whitespace sk).bind (reads_rem (reads_this ?_ ((reads_marker hm' hl' he).bind_last reads_pure)))
          simp only [List.append_assoc] at h3 ⊢
          rw [h3.1, h7]
          simp [hd]
        exact ⟨w ++ (m ++ r ++ e) ++ a2, _, b2, vs2, by simp, by same, h4, fun _ => by simp only [List.length_append]; omega, reads_loop (by omega) h8 h6⟩
      · have hml : m.length = 3 := by rcases hm' with h | h <;> rw [h] <;> rfl
        have h8 : Reads env suffixStep x (w ++ (m ++ r ++ e)) (us ++ shift w.length [⟨0, 3, .symbol_punc⟩]) b' (.inr ()) x := by
          refine (reads_whitespace sk).bind (reads_rem (reads_else ?_ (reads_this ?_ ((reads_marker hm' hl' he).bind_last reads_pure))))
          · simp only [List.append_assoc] at h3 ⊢
            rw [h3.1]
            simp [hd]
          · simp only [List.append_assoc] at h3 ⊢
            rw [h3.2, h7]
            simpa [hd] using hm'
        exact ⟨w ++ (m ++ r ++ e), _, b', ws, by simp, by same, h', fun _ => by simp only [List.length_append]; omega, reads_loop_end (by omega) h8⟩
    · have h3 := starts_marked hm
      refine ⟨w, us, b, vs, rfl, rfl, to_start hl (Skip.next sk), fun h => ?_, reads_loop_end (by omega) ?_⟩
      · have := hw h
        subst this
        exact absurd h hm
      · refine (reads_whitespace sk).bind_last (reads_rem (reads_else ?_ (reads_else ?_ reads_pure)))
        · rw [List.nil_append, h3.2]; simp
        · rw [List.nil_append, h3.1]; simp

theorem no_start (h : Lines .start s ts) (hs : s = []) : ts = [] := by
  obtain ⟨w, us, b, vs, rfl, rfl, sk, hl⟩ := start_of h
  simp at hs
  obtain ⟨rfl, rfl⟩ := hs
  have hl := (AtBody.lines hl (by simp)).2
  have := no_lines hl rfl
  subst this
  cases sk
  rfl

theorem step_loop {n : Nat} (h : Lines .start s ts) (hn : s.length < n) : ∃ y, Reads env (HM.loop n (fun _ => step) ()) x s ts [] () y := by
  induction n generalizing s ts x with
  | zero => omega
  | succ n ih =>
    by_cases ne : s = []
    · have := no_start h ne
      subst this
      subst ne
      exact ⟨x, reads_loop_end (by omega) (reads_eof (reads_this rfl reads_pure))⟩
    · obtain ⟨a, us, b, vs, k, y, rfl, rfl, h3, h4, h5⟩ := document_lines (env := env) (x := x) h
      rcases h4 with rfl | hm
      · have := no_lines h3 rfl
        subst this
        refine ⟨y, ?_⟩
        have h6 : Reads env step x a us [] (.inr ()) y :=
          reads_eof (reads_else (by simpa using ne) (h5.bind_last (reads_eof (reads_this rfl reads_pure))))
        exact ((reads_loop_end (v := ()) (by omega) h6).tokens (by simp [shift_empty])).text (by simp)
      · obtain ⟨a2, us2, b2, vs2, rfl, rfl, h6, h7, h8⟩ := suffix_loop (env := env) (x := y) (marked_start h3 hm) (Nat.lt_succ_self _)
        have hlt := h7 hm
        simp only [List.length_append] at hn hlt
        obtain ⟨z, h9⟩ := ih (x := y) h6 (by omega)
        refine ⟨z, ?_⟩
        have hs : Reads env documentSuffix y a2 us2 b2 () y := reads_rem h8
        have ht : Reads env (do
            if ← HM.eof then pure (.inr ())
            else do
              documentSuffix
              pure (.inl ()) : HM St (Unit ⊕ Unit)) y a2 us2 b2 (.inl ()) y := by
          refine reads_eof (reads_else ?_ (hs.bind_last reads_pure))
          obtain ⟨c, t, e, -⟩ := Marked.head hm
          simp [e]
        have h10 : Reads env step x (a ++ a2) (us ++ shift a.length us2) b2 (.inl ()) y :=
          reads_eof (reads_else (by simpa using ne) (h5.bind ht))
        have h11 : Reads env step x (a ++ a2) (us ++ shift a.length us2) (b2 ++ []) (.inl ()) y := by simpa using h10
        exact ((reads_loop (c := ()) (c' := ()) (m := n + 1) (by omega) h11 h9).tokens (by same)).text (by simp)

theorem reads_main (h : ProgramIn Element .start s ts) : ∃ y, Reads env main x s ts [] true y := by
  obtain ⟨w, us, b, vs, rfl, rfl, sk, hl⟩ := start_of h
  obtain ⟨y, h1⟩ := step_loop (env := env) (x := x) (to_start hl (Skip.next sk)) (Nat.lt_succ_self _)
  refine ⟨y, ?_⟩
  have h2 : Reads env (do HM.loop ((← HM.rem).length + 1) (fun _ => step) (); pure true) x b vs [] true y := by
    refine reads_rem ?_
    rw [List.append_nil]
    exact h1.bind_last reads_pure
  have h4 : Reads env documentPrefix x w us (b ++ []) () x := by simpa using reads_prefix sk
  exact h4.bind (f := fun _ => (do HM.loop ((← HM.rem).length + 1) (fun _ => step) (); pure true : HM St Bool)) h2

/-- YAML documents get exactly the tokens of their lines. -/
theorem C58_yaml : ExactIn highlight (fun _ => Element) .start := by
  intro opts src ts h debug
  obtain ⟨y, this⟩ := reads_main (env := ⟨debug, opts.seen, src⟩) (x := []) h
  obtain ⟨es, rfl, h1⟩ := this
  have h1 := h1 0 [] (by simp)
  simp at h1
  have hz : ∀ e : Emit, Emit.moved 0 e = e := by intro e; simp [Emit.moved]
  rw [show Emit.moved 0 = id from funext hz] at h1
  exact ⟨es, by simp [highlight, HM.run, HM.runAll, h1], rfl⟩

/-- The comment after a value gets no tokens. -/
theorem C58_yaml_comment (debug : Bool) : ∃ es, highlight debug {} b!"a: b # c\n" = .ok (true, es) ∧
    es.map Emit.token = [⟨0, 1, .markup_attr⟩, ⟨1, 1, .symbol_punc⟩, ⟨3, 1, .string⟩] := by
  have : (match highlight debug {} b!"a: b # c\n" with
      | .ok (true, es) => decide (es.map Emit.token = [⟨0, 1, .markup_attr⟩, ⟨1, 1, .symbol_punc⟩, ⟨3, 1, .string⟩])
      | _ => false) = true := by
    cases debug <;> decide +kernel
  split at this
  · rename_i es h
    exact ⟨es, h, by simpa using this⟩
  · cases this

/-- A line that has only spaces ends the document: the line `%a b` after it is highlighted as a directive.  After an empty line
it is highlighted as a string. -/
theorem C58_yaml_spaces (debug : Bool) :
    (∃ es, highlight debug {} b!"~\n \n%a b\n" = .ok (true, es) ∧
      es.map Emit.token = [⟨0, 1, .null⟩, ⟨4, 1, .name_macro_delim⟩, ⟨5, 1, .name_macro⟩, ⟨7, 1, .string⟩]) ∧
    ∃ es, highlight debug {} b!"~\n\n%a b\n" = .ok (true, es) ∧ es.map Emit.token = [⟨0, 1, .null⟩, ⟨3, 4, .string⟩] := by
  constructor
  · have : (match highlight debug {} b!"~\n \n%a b\n" with
        | .ok (true, es) => decide (es.map Emit.token = [⟨0, 1, .null⟩, ⟨4, 1, .name_macro_delim⟩, ⟨5, 1, .name_macro⟩, ⟨7, 1, .string⟩])
        | _ => false) = true := by
      cases debug <;> decide +kernel
    split at this
    · rename_i es h
      exact ⟨es, h, by simpa using this⟩
    · cases this
  · have : (match highlight debug {} b!"~\n\n%a b\n" with
        | .ok (true, es) => decide (es.map Emit.token = [⟨0, 1, .null⟩, ⟨3, 4, .string⟩])
        | _ => false) = true := by
      cases debug <;> decide +kernel
    split at this
    · rename_i es h
      exact ⟨es, h, by simpa using this⟩
    · cases this

/-- The line after a block scalar gets no tokens if there is a tag before the block scalar. -/
theorem C58_yaml_tagged (debug : Bool) : ∃ es, highlight debug {} b!"a: !t |\n b\nc: d\n" = .ok (true, es) ∧
    es.map Emit.token = [⟨0, 1, .markup_attr⟩, ⟨1, 1, .symbol_punc⟩, ⟨3, 1, .name_attr_delim⟩, ⟨4, 1, .name_attr⟩, ⟨6, 1, .string_delim⟩,
      ⟨9, 1, .string⟩] := by
  have : (match highlight debug {} b!"a: !t |\n b\nc: d\n" with
      | .ok (true, es) => decide (es.map Emit.token = [⟨0, 1, .markup_attr⟩, ⟨1, 1, .symbol_punc⟩, ⟨3, 1, .name_attr_delim⟩, ⟨4, 1, .name_attr⟩,
          ⟨6, 1, .string_delim⟩, ⟨9, 1, .string⟩])
      | _ => false) = true := by
    cases debug <;> decide +kernel
  split at this
  · rename_i es h
    exact ⟨es, h, by simpa using this⟩
  · cases this

theorem number_no_x (h : Number w ∨ BadNumber w) : c!"x" ∉ w.take 1 := by
  have hx : ∀ base, base ≤ 10 → ¬ ∃ v, digitVal c!"x" = some v ∧ v < base := by decide
  have hp : ∀ p, decimals.Parts p → c!"x" ∉ p.text := by
    intro p h hm
    have hd : ¬ decimals.Digits c!"x" := by
      rintro (⟨v, h1, h2⟩ | ⟨h1, h2⟩)
      · exact hx 10 (by omega) ⟨v, h1, h2⟩
      · exact absurd h2 (by decide)
    have hg : c!"x" ∉ p.sign ++ p.pre := by
      have : ∀ e ∈ decimals.decor, c!"x" ∉ e := by decide
      rcases h.decor with e | e
      · simp [e]
      · exact this _ e
    unfold NumberParts.text at hm
    simp only [List.mem_append] at hm
    rcases hm with ((((((hm | hm) | hm) | hm) | hm) | hm) | hm) | hm
    · exact hg (by simp [hm])
    · exact hg (by simp [hm])
    · exact hd (h.integer _ hm)
    · rcases h.point with e | e <;> rw [e] at hm <;> exact absurd hm (by decide)
    · exact hd (h.fraction _ hm)
    · have : ∀ e ∈ decimals.exps, c!"x" ∉ e := by decide
      rcases h.expSep with e | e
      · rw [e] at hm; simp at hm
      · exact this _ e hm
    · exact absurd (h.expDigits _ hm) (by simp [DecDigit])
    · rcases h.suffix with e | e
      · rw [e] at hm; simp at hm
      · exact e
  have hs : ∀ a, DigitsIn 10 a → a ≠ [] → ∀ t : Bytes, (a ++ t).take 1 = a.take 1 → c!"x" ∉ (a ++ t).take 1 := by
    intro a ha na t e hm
    rw [e] at hm
    exact hx 10 (by omega) (ha _ (List.mem_of_mem_take hm))
  rcases h with h | h
  · cases h with
    | special h =>
      have : ∀ w ∈ Spec.Yaml.specials, c!"x" ∉ w.take 1 := by decide +kernel
      exact this _ h
    | @prefixed pre base ds h ne hd =>
      have : ∀ p ∈ prefixes, ∀ t, c!"x" ∉ (p.1 ++ t).take 1 := by simp [prefixes]
      exact this _ h ds
    | sexagesimal ha hb na nb =>
      obtain ⟨d, u, rfl⟩ := List.exists_cons_of_ne_nil na
      simpa using hs _ ha na [] (by simp)
    | sexagesimal3 ha hb hc na nb =>
      obtain ⟨d, u, rfl⟩ := List.exists_cons_of_ne_nil na
      simpa using hs _ ha na [] (by simp)
    | decimal h => exact fun hm => hp _ h (List.mem_of_mem_take hm)
  · cases h with
    | @«prefix» pre base h =>
      have : ∀ p ∈ prefixes, c!"x" ∉ p.1.take 1 := by decide +kernel
      exact this _ h
    | exponent h => exact fun hm => hp _ h (List.mem_of_mem_take hm)

/-- A mapping with a sequence in brackets and a string, and a comment. -/
example : ProgramIn Element .start b!"a:\n- [1, x]\nb: \"c\" # d\n" [⟨0, 1, .markup_attr⟩, ⟨1, 1, .symbol_punc⟩, ⟨3, 1, .symbol_punc⟩,
    ⟨5, 1, .symbol_square⟩, ⟨6, 1, .number⟩, ⟨7, 1, .symbol_punc⟩, ⟨9, 1, .string⟩, ⟨10, 1, .symbol_square⟩, ⟨12, 1, .markup_attr⟩,
    ⟨13, 1, .symbol_punc⟩, ⟨15, 1, .string_delim⟩, ⟨16, 1, .string⟩, ⟨17, 1, .string_delim⟩] := by
  have k1 : ∀ t, ∀ c ∈ b!"ab", KeyText t none [c] := fun t c hc => .plain (by simp at hc; rcases hc with rfl | rfl <;> simp [InLine])
    (by simp at hc; rcases hc with rfl | rfl <;> decide) (by simp at hc; rcases hc with rfl | rfl <;> simp) .done
  have v4 : Value 0 b!" \"c\" # d\n" [⟨1, 1, .string_delim⟩, ⟨2, 1, .string⟩, ⟨3, 1, .string_delim⟩] [] :=
    .flow (w := b!" ") (a := b!"\"c\"") (r := b!" # d") (e := b!"\n") (by simp [Blank])
      (.node (.nil (by simp [NotFirst])) (.scalar (.double (.close (v := b!"c") (by simp [PlainDouble]))))) (by decide) (by simp [OneLine, InLine]) (.inr (.inl rfl))
  have e4 : Keyed 0 b!"b: \"c\" # d\n" [⟨0, 1, .markup_attr⟩, ⟨1, 1, .symbol_punc⟩, ⟨3, 1, .string_delim⟩, ⟨4, 1, .string⟩, ⟨5, 1, .string_delim⟩] [] :=
    .keyed (v := b!"b") (k1 _ _ (by decide)) (by simp [Blank]) (by simp [Separates]) (by simp [NotFirst]) (by decide) v4
  have p4 : ProgramIn Element (.line 62) b!"b: \"c\" # d\n" [⟨0, 1, .markup_attr⟩, ⟨1, 1, .symbol_punc⟩, ⟨3, 1, .string_delim⟩, ⟨4, 1, .string⟩,
      ⟨5, 1, .string_delim⟩] := .cons (Element.entry (k := 0) (.keyed e4) (by decide)) .nil
  have s3 : Scalar false b!"x" [⟨0, 1, .string⟩] b!"]\nb: \"c\" # d\n" := by
    refine .plain (by decide) (by simp [NotFirst]) ⟨by decide, ?_, ?_, .char (by decide)⟩ ?_
    · have : ∀ w ∈ Spec.Yaml.words, ∀ t, c!"x" :: b!"]\nb: \"c\" # d\n" ≠ w.1 ++ t := by simp [Spec.Yaml.words]
      exact fun w hw t e => absurd e (this w hw t)
    · intro k hk h
      have : k = 0 := by simp at hk; omega
      subst this
      cases h with
      | char h => exact absurd h (by decide)
    · intro w t e h ht
      have := number_no_x h
      cases w with
      | nil =>
        cases ht with
        | char h => cases e; exact absurd h (by decide)
        | _ => simp at e
      | cons c u => simp at e this; exact this e.1
  have f3 : Flow (.node false) b!"[1, x]" [⟨0, 1, .symbol_square⟩, ⟨1, 1, .number⟩, ⟨2, 1, .symbol_punc⟩, ⟨4, 1, .string⟩, ⟨5, 1, .symbol_square⟩]
      b!"\nb: \"c\" # d\n" :=
    .node (.nil (by simp [NotFirst])) <| .sequence (.item (w := []) (a := b!"1") (r := b!", x]") (.nil (by simp [NotFirst]))
      (.node (.nil (by simp [NotFirst])) (.scalar (.number (.decimal (sign := []) (i := b!"1") (point := []) (f := []) (e := []) (d := []) (by simp)
          (.inr ⟨by simp, by decide⟩) (.inl ⟨rfl, rfl⟩) (by simp) (.inl ⟨rfl, rfl⟩)) (.char (by decide)))))
      (.commaItems (w := []) (a := b!" x]") (.nil (by simp [NotFirst]))
        (.item (w := b!" ") (a := b!"x") (r := b!"]") (.white (by unfold White; decide) (.nil (by simp [NotFirst]))) (.node (.nil (by simp [NotFirst])) (.scalar s3))
          (.closeItems (w := []) (.nil (by simp [NotFirst]))))))
  have nk : NoKey b!"[1, x]\nb: \"c\" # d\n" := by
    intro v t e ht hk
    have h1 := findColon_of hk ht (by simp)
    rw [← e] at h1
    have h2 : findColon none b!"[1, x]\nb: \"c\" # d\n" = none := by decide +kernel
    rw [h2] at h1
    cases h1
  have p3 : ProgramIn Element (.entry 62 1) b!"[1, x]\nb: \"c\" # d\n" _ :=
    .cons (a := b!"[1, x]\n") (.value (e := b!"\n") f3 nk (by decide) (.inl (.inr (.inl rfl)))) p4
  have p2 : ProgramIn Element (.line 63) b!"- [1, x]\nb: \"c\" # d\n" _ :=
    .cons (a := b!"- ") (.entry (k := 0) (.dash (w := b!" ") rfl (.white (by unfold White; decide) (.nil (by simp [NotFirst])))) (by decide)) p3
  have e1 : Keyed 0 b!"a:\n" [⟨0, 1, .markup_attr⟩, ⟨1, 1, .symbol_punc⟩] b!"- [1, x]\nb: \"c\" # d\n" :=
    .keyed (v := b!"a") (a := b!"\n") (k1 _ _ (by decide)) (by simp [Blank]) (by simp [Separates]) (by simp [NotFirst]) (by decide)
      (.none (w := []) (r := []) (e := b!"\n") (by simp) (.inl rfl) (by simp [OneLine]) (.inr (.inl rfl)))
  have p1 : ProgramIn Element (.line 64) b!"a:\n- [1, x]\nb: \"c\" # d\n" _ := .cons (a := b!"a:\n") (.entry (k := 0) (.keyed e1) (by decide)) p2
  exact .cons (a := []) (.start (.nil (by simp [NotFirst])) (by simp [NotFirst])) p1

/-- Two documents. -/
example : ProgramIn Element .start b!"--- # a\n1\n...\n~\n" [⟨0, 3, .symbol_punc⟩, ⟨8, 1, .number⟩, ⟨10, 3, .symbol_punc⟩, ⟨14, 1, .null⟩] := by
  have nk : ∀ s, findColon none s = none → NoKey s := by
    intro s h v t e ht hk
    have h1 := findColon_of hk ht (by simp)
    rw [← e, h] at h1
    cases h1
  have p4 : ProgramIn Element (.line 64) b!"~\n" _ :=
    .cons (a := b!"~\n") (.entry (k := 0) (.value (a := b!"~") (r := []) (e := b!"\n") (.node (.nil (by simp [NotFirst])) (.scalar .tilde)) (nk _ (by decide +kernel)) (by decide)
      (by decide) (by simp [OneLine]) (.inr (.inl rfl))) (by decide)) .nil
  have p3 : ProgramIn Element .start b!"~\n" _ := .cons (a := []) (.start (.nil (by simp [NotFirst])) (by simp [NotFirst])) p4
  have p2 : ProgramIn Element (.line 64) b!"...\n~\n" _ :=
    .cons (a := b!"...\n") (.marker (m := b!"...") (r := []) (e := b!"\n") (.inr rfl) (by simp [OneLine]) (.inr (.inl rfl))) p3
  have p1 : ProgramIn Element (.line 64) b!"1\n...\n~\n" _ :=
    .cons (a := b!"1\n") (.entry (k := 0) (.value (a := b!"1") (r := []) (e := b!"\n")
      (.node (.nil (by simp [NotFirst])) (.scalar (.number (.decimal (sign := []) (i := b!"1") (point := []) (f := []) (e := []) (d := []) (by simp)
          (.inr ⟨by simp, by decide⟩) (.inl ⟨rfl, rfl⟩) (by simp) (.inl ⟨rfl, rfl⟩)) (.char (by decide))))) (nk _ (by decide +kernel)) (by decide) (by decide)
      (by simp [OneLine]) (.inr (.inl rfl))) (by decide)) p2
  have p0 : ProgramIn Element .start b!"1\n...\n~\n" _ := .cons (a := []) (.start (.nil (by simp [NotFirst])) (by simp [NotFirst])) p1
  have pm : ProgramIn Element (.line 64) b!"--- # a\n1\n...\n~\n" _ :=
    .cons (a := b!"--- # a\n") (.marker (m := b!"---") (r := b!" # a") (e := b!"\n") (.inl rfl) (by simp [OneLine, InLine]) (.inr (.inl rfl))) p0
  exact .cons (a := []) (.start (.nil (by simp [NotFirst])) (by simp [NotFirst])) pm

/-- A directive. -/
example : ProgramIn Element .start b!"%Y 1\n---\n~\n" [⟨0, 1, .name_macro_delim⟩, ⟨1, 1, .name_macro⟩, ⟨3, 1, .string⟩, ⟨5, 3, .symbol_punc⟩,
    ⟨9, 1, .null⟩] := by
  have nk : NoKey b!"~\n" := by
    intro v t e ht hk
    have h1 := findColon_of hk ht (by simp)
    rw [← e] at h1
    have h2 : findColon none b!"~\n" = none := by decide +kernel
    rw [h2] at h1
    cases h1
  have p3 : ProgramIn Element (.line 64) b!"~\n" _ :=
    .cons (a := b!"~\n") (.entry (k := 0) (.value (a := b!"~") (r := []) (e := b!"\n") (.node (.nil (by simp [NotFirst])) (.scalar .tilde)) nk (by decide)
      (by decide) (by simp [OneLine]) (.inr (.inl rfl))) (by decide)) .nil
  have p2 : ProgramIn Element .contents b!"~\n" _ := .cons (a := []) (.contents (.nil (by simp [NotFirst]))) p3
  have p1 : ProgramIn Element .directives b!"---\n~\n" _ :=
    .cons (a := b!"---\n") (.begins (w := []) (r := []) (e := b!"\n") (.nil (by simp [NotFirst])) (by simp [OneLine]) (.inr (.inl rfl))) p2
  exact .cons (a := b!"%Y 1\n") (.directive (w := []) (a := b!"%Y 1\n") (.nil (by simp [NotFirst]))
    (.line (v := b!"Y") (a := b!" 1") (e := b!"\n") (by simp [InLine, Blank]) (by simp [Blank])
      (.blank (by simp [Blank]) (.char (by simp [InLine]) (by simp [Blank]) .nil)) (.inr (.inl rfl)))) p1

/-- A block scalar. -/
example : ProgramIn Element .start b!"a: |\n  b: c\n\n   d\n" [⟨0, 1, .markup_attr⟩, ⟨1, 1, .symbol_punc⟩, ⟨3, 1, .string_delim⟩, ⟨7, 4, .string⟩,
    ⟨15, 2, .string⟩] := by
  have l1 : BlockLines 2 b!"   d\n" [⟨2, 2, .string⟩] [] :=
    .line (k := 2) (v := b!" d") (e := b!"\n") (a := []) (by simp) (by simp [OneLine, InLine]) (.inr (.inl rfl)) (.done (.inl rfl))
  have l2 : BlockLines 2 b!"\n   d\n" [⟨3, 2, .string⟩] [] := .blank (e := b!"\n") (.inr (.inl rfl)) (by simp) l1
  have l3 : BlockLines 2 b!"  b: c\n\n   d\n" [⟨2, 4, .string⟩, ⟨10, 2, .string⟩] [] :=
    .line (k := 2) (v := b!"b: c") (e := b!"\n") (by simp) (by simp [OneLine, InLine]) (.inr (.inl rfl)) l2
  have bs : BlockScalar 0 b!"|\n  b: c\n\n   d\n" [⟨0, 1, .string_delim⟩, ⟨4, 4, .string⟩, ⟨12, 2, .string⟩] [] :=
    .block (c := c!"|") (m := []) (d := []) (r := []) (e := b!"\n") (by decide) (by simp) (.inl rfl) (.plain (by simp [OneLine]) (by simp))
      (.inr (.inl rfl)) (.lines (k := 2) (c := c!"b") (t := b!": c\n\n   d\n") (by omega) rfl (by decide) l3)
  have kt : KeyText b!" |\n  b: c\n\n   d\n" none b!"a" := .plain (by simp [InLine]) (by decide) (by simp) .done
  have ke : Keyed 0 b!"a: |\n  b: c\n\n   d\n" [⟨0, 1, .markup_attr⟩, ⟨1, 1, .symbol_punc⟩, ⟨3, 1, .string_delim⟩, ⟨7, 4, .string⟩,
      ⟨15, 2, .string⟩] [] :=
    .keyed (v := b!"a") (a := b!" |\n  b: c\n\n   d\n") kt (by simp [Blank]) (by simp [Separates]) (by simp [NotFirst]) (by decide)
      (.block (w := b!" ") (by simp [Blank]) bs)
  have p1 : ProgramIn Element (.line 64) b!"a: |\n  b: c\n\n   d\n" _ :=
    .cons (a := b!"a: |\n  b: c\n\n   d\n") (b := []) (.entry (k := 0) (.keyed ke) (by decide)) .nil
  exact .cons (a := []) (.start (.nil (by simp [NotFirst])) (by simp [NotFirst])) p1

/-- A block scalar in an entry of a sequence. -/
example : ProgramIn Element (.line 64) b!"- >-\n  b" [⟨0, 1, .symbol_punc⟩, ⟨2, 1, .string_delim⟩, ⟨3, 1, .number_decor⟩, ⟨7, 1, .string⟩] := by
  have bs : BlockScalar 1 b!">-\n  b" [⟨0, 1, .string_delim⟩, ⟨1, 1, .number_decor⟩, ⟨5, 1, .string⟩] [] :=
    .block (c := c!">") (m := b!"-") (d := []) (r := []) (e := b!"\n") (by decide) (by simp) (.inl rfl) (.plain (by simp [OneLine]) (by simp))
      (.inr (.inl rfl)) (.lines (k := 2) (c := c!"b") (t := []) (by omega) rfl (by decide)
        (.line (k := 2) (v := b!"b") (e := []) (a := []) (by simp) (by simp [OneLine, InLine]) (.inr (.inr (.inr ⟨rfl, rfl⟩))) (.done (.inl rfl))))
  have nk : NoKey b!">-\n  b" := by
    intro v t e ht hk
    have h1 := findColon_of hk ht (by simp)
    rw [← e] at h1
    have h2 : findColon none b!">-\n  b" = none := by decide +kernel
    rw [h2] at h1
    cases h1
  have p1 : ProgramIn Element (.entry 63 1) b!">-\n  b" _ := .cons (a := b!">-\n  b") (b := []) (Element.block bs nk) .nil
  exact .cons (a := b!"- ") (Element.entry (k := 0) (.dash (w := b!" ") rfl (.white (by unfold White; decide) (.nil (by simp [NotFirst])))) (by decide)) p1

/-- An explicit key. -/
example : ProgramIn Element .start b!"? ~\n: 1\n" [⟨0, 1, .symbol_punc⟩, ⟨2, 1, .null⟩, ⟨4, 1, .symbol_punc⟩, ⟨6, 1, .number⟩] := by
  have nk : NoKey b!"1\n" := by
    intro v t e ht hk
    have h1 := findColon_of hk ht (by simp)
    rw [← e] at h1
    have h2 : findColon none b!"1\n" = none := by decide +kernel
    rw [h2] at h1
    cases h1
  have one : Skip b!" " [] b!"1\n" := .white (by unfold White; decide) (.nil (by simp [NotFirst]))
  have p3 : ProgramIn Element (.line 64) b!"1\n" _ :=
    .cons (a := b!"1\n") (.entry (k := 0) (.value (a := b!"1") (r := []) (e := b!"\n")
      (.node (.nil (by simp [NotFirst])) (.scalar (.number (.decimal (sign := []) (i := b!"1") (point := []) (f := []) (e := []) (d := []) (by simp)
          (.inr ⟨by simp, by decide⟩) (.inl ⟨rfl, rfl⟩) (by simp) (.inl ⟨rfl, rfl⟩)) (.char (by decide))))) nk (by decide) (by decide)
      (by simp [OneLine]) (.inr (.inl rfl))) (by decide)) .nil
  have p2 : ProgramIn Element (.explicit 64) b!": 1\n" _ :=
    .cons (a := b!": ") (.colon (w := []) (d := b!" ") (.nil (by simp [NotFirst])) rfl one) p3
  have p1 : ProgramIn Element (.line 64) b!"? ~\n: 1\n" _ :=
    .cons (a := b!"? ~\n") (.entry (k := 0) (.explicit (w := b!" ") (a := b!"~") (r := []) (e := b!"\n") ⟨c!" ", by decide, rfl⟩
      (.white (by unfold White; decide) (.nil (by simp [NotFirst]))) (.node (.nil (by simp [NotFirst])) (.scalar .tilde))
      (by simp [OneLine]) (.inr (.inl rfl))) (by decide)) p2
  exact .cons (a := []) (.start (.nil (by simp [NotFirst])) (by simp [NotFirst])) p1

/-- Numbers. -/
example : Scalar false b!"-1.5e+3" [⟨0, 7, .number⟩] b!"\n" :=
  .number (.decimal (sign := b!"-") (i := b!"1") (point := b!".") (f := b!"5") (e := b!"e+") (d := b!"3") (by simp)
    (.inr ⟨by simp, by decide⟩) (.inr ⟨rfl, .inr ⟨by simp, by decide⟩⟩) (by simp) (.inr ⟨by simp, by simp, by decide⟩)) (.char (by decide))
example : Scalar false b!"0xfF" [⟨0, 4, .number⟩] b!"\n" :=
  .number (.prefixed (pre := b!"0x") (base := 16) (by simp [prefixes]) ⟨by simp, by decide⟩) (.char (by decide))
example : Scalar false b!"3:5" [⟨0, 3, .number⟩] b!"\n" :=
  .number (.sexagesimal (u := b!"3") (v := b!"5") ⟨by simp, by decide⟩ ⟨by simp, by decide⟩ (by simp)) (.char (by decide))

/-- Tags and anchors. -/
example : Flow (.node false) b!"!!s &a ~" [⟨0, 2, .name_attr_delim⟩, ⟨2, 1, .name_attr⟩, ⟨4, 1, .name_attr_delim⟩, ⟨5, 1, .name⟩, ⟨7, 1, .null⟩]
    b!"\n" :=
  .node (p := b!"!!s &a ") (a := b!"~")
    (.cons (p := b!"!!s") (w := b!" ") (a := b!"&a ") (.secondary (v := b!"s") ⟨by simp [WordEnd], by simp [WordEnd]⟩) (by simp [Blank])
      (by simp [NotFirst])
      (.cons (p := b!"&a") (w := b!" ") (a := []) (.anchor (v := b!"a") ⟨by simp [WordEnd], by simp [WordEnd]⟩) (by simp [Blank])
        (by simp [NotFirst]) (.nil (by simp [NotFirst])))) (.scalar .tilde)
example : Flow (.node false) b!"&a" [⟨0, 1, .name_attr_delim⟩, ⟨1, 1, .name⟩] b!"\n" :=
  .empty (.cons (p := b!"&a") (w := []) (a := []) (.anchor (v := b!"a") ⟨by simp [WordEnd], by simp [WordEnd]⟩) (by simp)
    (by simp [NotFirst]) (.nil (by simp [NotFirst]))) (by simp) (by simp)

end Ulight.Yaml
