import Verif.Props.Lang.CowelMatch

/-!
# C50: highlighting of COWEL
-/

namespace Ulight

open Spec Utf8

namespace Cowel

open Spec.Cowel

variable {env : HEnv} {s : HS Unit}

/-! ## Functions without recursion -/

theorem emitIfStarts_spec {w : Bytes} {ty : HT} (hw : w ≠ []) (ht : ty ≠ .none)
    (h : ∀ s : Bytes, s.take w.length = w → Tok s w.length ty) :
    ExpectsOr rules (emitIfStarts w ty) (fun s => startsWith s.rem w = false) := by
  intro env s g
  unfold emitIfStarts
  rw [wp_bind, wp_rem]
  split
  · rename_i hs
    obtain ⟨h1, h2⟩ := startsWith_facts hs _ rfl
    rw [wp_bind]
    have := List.length_pos_iff.2 hw
    refine wp_step_emitAdv g this h1 ht (h _ h2) fun s1 g1 l1 e1 i1 x1 => ?_
    rw [wp_pure]
    exact Or.inl ⟨rfl, g1, by omega⟩
  · rename_i hs
    rw [wp_pure]
    exact Or.inr ⟨rfl, rfl, by simpa using hs⟩

theorem lineComment_wp (g : Good rules env s) : wp expectLineComment (fun b s' =>
    (b = true ∧ matchLineComment s.rem ≠ 0 ∧ Consumes rules env s (matchLineComment s.rem) s') ∨
    (b = false ∧ s' = s ∧ matchLineComment s.rem = 0)) env s := by
  unfold expectLineComment
  rw [wp_bind, wp_rem]
  dsimp only
  split
  · rename_i h
    obtain ⟨h1, h2, h3, h4⟩ := lineComment_facts h
    rw [wp_bind, wp_hassert]
    refine ⟨by simpa using h2, ?_⟩
    rw [wp_bind]
    refine wp_step_emitAdv g (by omega) (by omega) (by simp) (Tok.commentDelim (by simp [h1])) fun s1 g1 l1 e1 i1 x1 => ?_
    rw [wp_bind]
    refine wp_step_emitAdvIf g1 (by rw [e1]; simp; omega) (by simp) (fun _ => ?_) fun s2 g2 l2 e2 i2 x2 => ?_
    · rw [e1]
      exact Tok.lineComment h4
    · rw [wp_pure]
      refine Or.inl ⟨rfl, h, g2, ?_, by omega, by rw [x2, x1]⟩
      rw [e2, e1, List.drop_drop, show 2 + (matchLineComment s.rem - 2) = matchLineComment s.rem by omega]
  · rename_i h
    rw [wp_pure]
    exact Or.inr ⟨rfl, rfl, by simpa using h⟩

theorem blockComment_wp (g : Good rules env s) : wp expectBlockComment (fun b s' =>
    (b = true ∧ (matchBlockComment s.rem).length ≠ 0 ∧ Consumes rules env s (matchBlockComment s.rem).length s') ∨
    (b = false ∧ s' = s ∧ (matchBlockComment s.rem).length = 0)) env s := by
  unfold expectBlockComment
  rw [wp_bind, wp_rem]
  dsimp only
  split
  · rename_i h
    obtain ⟨h1, h2, h3, h4⟩ := blockComment_facts h
    rw [wp_bind, wp_hassert]
    refine ⟨by simpa using h2, ?_⟩
    rw [wp_bind]
    refine wp_step_emitAdv g (by omega) (by omega) (by simp) (Tok.commentDelim (by simp [h1])) fun s1 g1 l1 e1 i1 x1 => ?_
    rcases h4 with ⟨ht, h5, h6, h7⟩ | ⟨ht, h5, h6⟩
    · rw [if_pos ht, wp_bind]
      refine wp_step_emitAdvIf g1 (by rw [e1]; simp; omega) (by simp) (fun _ => ?_) fun s2 g2 l2 e2 i2 x2 => ?_
      · rw [e1]
        exact Tok.blockComment h6
      · have hr : s2.rem.take 2 = b!"*\\" ∧ 2 ≤ s2.rem.length := by
          obtain ⟨a, b, hab, hl⟩ := h7
          rw [e2, e1, hab, ← hl, List.append_assoc, List.drop_left]
          simp
        rw [wp_bind]
        refine wp_step_emitAdv g2 (by omega) hr.2 (by simp) (Tok.commentDelim (by simp [hr.1])) fun s3 g3 l3 e3 i3 x3 => ?_
        rw [wp_pure]
        refine Or.inl ⟨rfl, h, g3, ?_, by omega, by rw [x3, x2, x1]⟩
        rw [e3, e2, e1, List.drop_drop, List.drop_drop,
          show 2 + ((matchBlockComment s.rem).length - 4 + 2) = (matchBlockComment s.rem).length by omega]
    · rw [if_neg (by simp [ht]), wp_bind]
      refine wp_step_emitAdvIf g1 (by rw [e1]; simp; omega) (by simp) (fun _ => ?_) fun s2 g2 l2 e2 i2 x2 => ?_
      · rw [e1]
        exact Tok.blockComment ⟨fun k hk => absurd hk (h6 k), Or.inl (by simp; omega)⟩
      · rw [wp_pure]
        refine Or.inl ⟨rfl, h, g2, ?_, by omega, by rw [x2, x1]⟩
        rw [e2, e1, List.drop_drop, show 2 + ((matchBlockComment s.rem).length - 2) = (matchBlockComment s.rem).length by omega]
  · rename_i h
    rw [wp_pure]
    exact Or.inr ⟨rfl, rfl, by simpa using h⟩

theorem expectLineComment_spec : ExpectsOr rules expectLineComment (fun s => matchLineComment s.rem = 0) := by
  intro env s g
  refine wp_mono (lineComment_wp g) ?_
  rintro b s' (⟨rfl, h, c⟩ | h)
  · exact Or.inl ⟨rfl, c.1, by have := c.2.2.1; omega⟩
  · exact Or.inr h

theorem expectBlockComment_spec : ExpectsOr rules expectBlockComment (fun s => (matchBlockComment s.rem).length = 0) := by
  intro env s g
  refine wp_mono (blockComment_wp g) ?_
  rintro b s' (⟨rfl, h, c⟩ | h)
  · exact Or.inl ⟨rfl, c.1, by have := c.2.2.1; omega⟩
  · exact Or.inr h

/-- `expect_escape` moves over the escape sequence, or over a backslash before the end of a line. -/
theorem escape_wp (g : Good rules env s) : wp expectEscape (fun b s' =>
    (b = true ∧ (matchEscape s.rem).length ≠ 0 ∧ (Consumes rules env s (matchEscape s.rem).length s' ∨
      (Consumes rules env s 1 s' ∧ ∃ c t, s.rem = c!"\\" :: c :: t ∧ ¬ InLine c ∧
        ((matchEscape s.rem).length = 2 ∨ (matchEscape s.rem).length = 3 ∧ ∃ d u, t = d :: u ∧ ¬ InLine d)))) ∨
    (b = false ∧ s' = s ∧ (matchEscape s.rem).length = 0)) env s := by
  unfold expectEscape
  rw [wp_bind, wp_rem]
  dsimp only
  split
  · rename_i h
    rw [wp_pure]
    exact Or.inr ⟨rfl, rfl, h⟩
  · rename_i h
    rcases matchEscape_facts s.rem with ⟨h0, _⟩ | ⟨hb, h1, h2, z, hz, h3⟩
    · exact absurd h0 h
    rw [getLast_take h1 h2, hz]
    rcases h3 with ⟨hn, hr, c, t, hs, hc, hl⟩ | ⟨hi, hbad, hgood⟩
    · have : (some z = some 0x0A || some z = some 0x0D) = true := by
        unfold InLine at hn
        simp
        grind
      rw [if_pos (by simpa using this), wp_bind]
      refine wp_step_emitAdv g (by omega) (by omega) (by simp) ?_ fun s1 g1 l1 e1 i1 x1 => ?_
      · refine Tok.escape (.newline (c := c) (by simp [hs]) (by simp [hs]) ?_)
        unfold InLine at hc
        simp
        grind
      · rw [wp_pure]
        exact Or.inl ⟨rfl, h, Or.inr ⟨⟨g1, e1, i1, x1⟩, c, t, hs, hc, hl⟩⟩
    · rw [if_neg (by unfold InLine at hi; simp [hi]), wp_bind]
      refine wp_step_emitAdv g h1 h2 (by split <;> simp) ?_ fun s1 g1 l1 e1 i1 x1 => ?_
      · split
        · exact Tok.badEscape (hbad ‹_›)
        · rename_i hr; exact Tok.escape (hgood (by simpa using hr))
      · rw [wp_pure]
        exact Or.inl ⟨rfl, h, Or.inl ⟨g1, e1, i1, x1⟩⟩

theorem expectEscape_spec : ExpectsOr rules expectEscape (fun s => (matchEscape s.rem).length = 0) := by
  intro env s g
  refine wp_mono (escape_wp g) ?_
  rintro b s' (⟨rfl, h, c | c⟩ | h)
  · exact Or.inl ⟨rfl, c.1, by have := c.2.2.1; omega⟩
  · exact Or.inl ⟨rfl, c.1.1, by have := c.1.2.2.1; omega⟩
  · exact Or.inr h

/-- One iteration of `consume_blank`. -/
theorem blankStep_wp (g : Good rules env s) : wp (blankStep isHtmlWhitespace ()) (fun r s' => match r with
    | .inl _ => ∃ n, 0 < n ∧ Consumes rules env s n s' ∧ matchBlank s.rem = n + matchBlank s'.rem
    | .inr _ => Consumes rules env s (matchBlank s.rem) s') env s := by
  unfold blankStep
  rw [wp_bind, wp_rem]
  split
  · rename_i h
    simp at h
    rw [wp_pure, h]
    exact ⟨g, by simp [h, show matchBlank [] = 0 from rfl], rfl, rfl⟩
  · have hw := whitespace_facts s.rem
    have e : Ascii.length_if s.rem isHtmlWhitespace = matchWhitespace s.rem := rfl
    have hb : matchBlank s.rem = matchWhitespace s.rem + matchBlank (s.rem.drop (matchWhitespace s.rem)) := by
      by_cases h : matchWhitespace s.rem ≠ 0
      · rw [matchBlank_eq, if_pos h]
      · simp at h
        rw [h]
        simp
    have hz : matchWhitespace (s.rem.drop (matchWhitespace s.rem)) = 0 := by
      have h1 := hw.2.2
      obtain ⟨h2, h3, _⟩ := whitespace_facts (s.rem.drop (matchWhitespace s.rem))
      refine Classical.byContradiction fun h0 => ?_
      match hd : s.rem.drop (matchWhitespace s.rem) with
      | [] => simp [hd] at h2; simp [hd] at h0; omega
      | c :: t =>
        have h4 : s.rem[matchWhitespace s.rem]? = some c := by
          have := congrArg (·[0]?) hd
          simpa using this
        refine h1 c h4 (h3 c ?_)
        rw [hd] at h0 ⊢
        exact List.mem_take_iff_getElem.2 ⟨0, by simp; omega, by simp⟩
    rw [e, wp_bind]
    refine wp_step_advance g hw.1 (Gap.space hw.2) fun s1 g1 l1 e1 i1 x1 => ?_
    rw [wp_bind]
    refine wp_step_or (wp_mono (lineComment_wp g1) ?_)
    rintro _ s2 (⟨rfl, h2, c2⟩ | ⟨rfl, rfl, h2⟩)
    · simp only [if_true]
      rw [wp_pure]
      refine ⟨_, ?_, Consumes.trans ⟨g1, e1, i1, x1⟩ c2, ?_⟩
      · omega
      · rw [hb, ← e1, matchBlank_eq, e1, if_neg (by simp [hz]), ← e1, if_pos h2, c2.2.1]
        omega
    · simp only [Bool.false_eq_true, if_false]
      refine wp_mono (blockComment_wp g1) ?_
      rintro _ s3 (⟨rfl, h3, c3⟩ | ⟨rfl, rfl, h3⟩)
      · simp only [if_true]
        rw [wp_pure]
        refine ⟨_, ?_, Consumes.trans ⟨g1, e1, i1, x1⟩ c3, ?_⟩
        · omega
        · rw [hb, ← e1, matchBlank_eq, e1, if_neg (by simp [hz]), ← e1, if_neg (by simp [h2]), if_pos h3, c3.2.1]
          omega
      · simp only [Bool.false_eq_true, if_false]
        rw [wp_pure, hb, ← e1, matchBlank_eq, e1, if_neg (by simp [hz]), ← e1, if_neg (by simp [h2]), if_neg (by simp [h3])]
        exact ⟨g1, e1, i1, x1⟩


theorem consumeBlank_wp (g : Good rules env s) :
    wp consumeBlank (fun _ s' => Consumes rules env s (matchBlank s.rem) s') env s := by
  unfold consumeBlank
  rw [wp_bind, wp_rem]
  refine wp_loop_moved (R := rules) (fun _ s1 => ∃ n, Consumes rules env s n s1 ∧ matchBlank s.rem = n + matchBlank s1.rem)
    ?_ g ⟨0, ⟨g, by simp, by simp, rfl⟩, by simp⟩ (by omega)
  rintro _ s1 g1 l1 i1 ⟨n, c1, h1⟩
  refine wp_mono (blankStep_wp g1) ?_
  rintro (_ | _) s2 h
  · obtain ⟨m, hm, c2, h2⟩ := h
    exact ⟨c2.1, by have := c2.2.2.1; omega, n + m, c1.trans c2, by omega⟩
  · simp only at h ⊢
    rw [h1]
    exact c1.trans h

theorem matchBlank_done (s : Bytes) : matchBlank (s.drop (matchBlank s)) = 0 := by
  generalize hn : s.length = n
  induction n using Nat.strongRecOn generalizing s with
  | _ n ih =>
    have hw := whitespace_facts s
    rw [matchBlank_eq s]
    split
    · rename_i h
      rw [← List.drop_drop]
      exact ih _ (by simp; omega) _ rfl
    · split
      · rename_i h
        obtain ⟨_, h2, h3, _⟩ := lineComment_facts h
        rw [← List.drop_drop]
        exact ih _ (by simp; omega) _ rfl
      · split
        · rename_i h
          obtain ⟨_, h2, h3, _⟩ := blockComment_facts h
          rw [← List.drop_drop]
          exact ih _ (by simp; omega) _ rfl
        · rw [matchBlank_eq]
          simp [*]

theorem blank_first {s : Bytes} (h : matchBlank s = 0) : ∀ c, s[0]? = some c → ¬ Space c := by
  have := matchBlank_eq s
  rw [h] at this
  refine whitespace_zero (Classical.byContradiction fun h0 => ?_)
  rw [if_pos h0] at this
  omega

/-! ## Ways to say what a function does -/

/-- `m` succeeds and moves forward, or fails and leaves the state as it is, for the reason `F`. -/
def Tries (env : HEnv) (s : HS Unit) (F : Prop) (m : HM Unit Bool) : Prop :=
  wp m (fun b s' => (b = true ∧ Good rules env s' ∧ s.idx < s'.idx) ∨ (b = false ∧ s' = s ∧ F)) env s

/-- `m` does not go back. -/
def Goes (env : HEnv) (s : HS Unit) {α : Type} (m : HM Unit α) : Prop :=
  wp m (fun _ s' => Moved rules env s s') env s

theorem Tries.of {m : HM Unit Bool} {F : HS Unit → Prop} (h : ExpectsOr rules m F) (g : Good rules env s) :
    Tries env s (F s) m := h env s g

theorem Tries.or {a b : HM Unit Bool} {F G : Prop} (ha : Tries env s F a) (hb : F → Tries env s G b) :
    Tries env s (F ∧ G) (HM.or a b) := by
  refine wp_step_or (wp_mono ha ?_)
  rintro _ s1 (⟨rfl, g1, h1⟩ | ⟨rfl, rfl, h⟩)
  · exact Or.inl ⟨rfl, g1, h1⟩
  · simp only [Bool.false_eq_true, if_false]
    refine wp_mono (hb h) ?_
    rintro _ s2 (h2 | ⟨h2, h3, h4⟩)
    · exact Or.inl h2
    · exact Or.inr ⟨h2, h3, h, h4⟩

theorem Tries.mono {a : HM Unit Bool} {F G : Prop} (ha : Tries env s F a) (h : F → G) : Tries env s G a := by
  refine wp_mono ha ?_
  rintro _ s2 (h2 | ⟨h2, h3, h4⟩)
  · exact Or.inl h2
  · exact Or.inr ⟨h2, h3, h h4⟩

theorem Tries.goes {a : HM Unit Bool} {F : Prop} (g : Good rules env s) (ha : Tries env s F a) : Goes env s a := by
  refine wp_mono ha ?_
  rintro _ s2 (⟨_, g2, h2⟩ | ⟨_, rfl, _⟩)
  · exact ⟨g2, by omega⟩
  · exact Moved.refl g

theorem Goes.bind {α β : Type} {m : HM Unit α} {f : α → HM Unit β} (h : Goes env s m)
    (k : ∀ a s', Moved rules env s s' → Goes env s' (f a)) : Goes env s (m >>= f) := by
  unfold Goes
  rw [wp_bind]
  refine wp_mono h ?_
  intro a s1 m1
  exact wp_mono (k a s1 m1) fun _ _ m2 => m1.trans m2

theorem Goes.pure {α : Type} {a : α} (g : Good rules env s) : Goes env s (Pure.pure a : HM Unit α) := by
  unfold Goes
  rw [wp_pure]
  exact Moved.refl g

/-- What comes after a successful move. -/
theorem Goes.after {m : HM Unit Bool} {F : Prop} {s' : HS Unit} (h : s.idx < s'.idx)
    (hm : wp m (fun b s2 => b = true ∧ Moved rules env s' s2) env s') :
    wp m (fun b s2 => (b = true ∧ Good rules env s2 ∧ s.idx < s2.idx) ∨ (b = false ∧ s2 = s ∧ F)) env s' := by
  refine wp_mono hm ?_
  rintro _ s2 ⟨rfl, m⟩
  exact Or.inl ⟨rfl, m.good, by have := m.le; omega⟩

theorem consumeBlank_goes (g : Good rules env s) : Goes env s consumeBlank :=
  wp_mono (consumeBlank_wp g) fun _ _ h => h.moved

theorem consumeHorizontalBlank_goes (g : Good rules env s) : Goes env s consumeHorizontalBlank := by
  unfold consumeHorizontalBlank Goes
  rw [wp_bind, wp_rem]
  refine wp_loop_moved (R := rules) (fun _ s1 => s.idx ≤ s1.idx) ?_ g (by omega) (by omega)
  rintro _ s1 g1 l1 i1 _
  unfold blankStep
  rw [wp_bind, wp_rem]
  split
  · rw [wp_pure]
    exact ⟨g1, i1⟩
  · rw [wp_bind]
    refine wp_step_advance g1 (length_if_le s1.rem _ 0 (by omega)).2
      (Gap.horizontal (length_if_zero_longest s1.rem _ Horizontal isHorizontal_iff)) fun s2 g2 l2 e2 i2 x2 => ?_
    rw [wp_bind]
    refine wp_mono (((Tries.of expectLineComment_spec g2).or fun _ => .of expectBlockComment_spec g2)) ?_
    rintro _ s3 (⟨rfl, g3, h3⟩ | ⟨rfl, rfl, h3⟩)
    · simp only [if_true]
      rw [wp_pure]
      exact ⟨g3, by omega, by omega⟩
    · simp only [Bool.false_eq_true, if_false]
      rw [wp_pure]
      exact ⟨g2, by omega⟩

/-! ## Expressions without recursion -/

theorem expectEllipsis_spec : ExpectsOr rules expectEllipsis (fun s => startsWith s.rem b!"..." = false) := by
  intro env s g
  unfold expectEllipsis matchEllipsis
  rw [wp_bind, wp_rem]
  by_cases h : startsWith s.rem b!"..." = true
  · obtain ⟨h1, h2⟩ := startsWith_facts h _ rfl
    simp only [h, if_true]
    rw [if_pos (by simp), wp_bind]
    refine wp_step_emitAdv g (by omega) h1 (by simp) (Tok.ellipsis h2) fun s1 g1 l1 e1 i1 x1 => ?_
    rw [wp_pure]
    exact Or.inl ⟨rfl, g1, by omega⟩
  · simp only [h, Bool.false_eq_true, if_false]
    rw [if_neg (by simp), wp_pure]
    exact Or.inr ⟨rfl, rfl, by simp⟩

theorem functionName_goes (g : Good rules env s) : Goes env s functionName := by
  unfold functionName Goes
  rw [wp_bind, wp_rem]
  refine wp_step_emitAdvIf g (identifier_le _) (by simp) (fun h => Tok.function (identifier_ident (by omega)))
    fun s1 g1 l1 e1 i1 x1 => ?_
  exact ⟨g1, by omega⟩

theorem not_call {s : Bytes} (h : isCall s = false) (h0 : matchIdentifier s ≠ 0) :
    ∃ m, Blank (s.drop (matchIdentifier s)) m ∧ ∀ c ∈ b!"({", s[matchIdentifier s + m]? ≠ some c := by
  refine ⟨_, (matchBlank_spec _).1, fun c hc e => ?_⟩
  unfold isCall at h
  simp only [e] at h
  simp [h0] at h
  simp at hc
  grind

theorem expectIdentifierLike_spec (g : Good rules env s) (hc : isCall s.rem = false) :
    Tries env s (∀ c, s.rem[0]? = some c → ¬ Start c) expectIdentifierLike := by
  unfold expectIdentifierLike Tries
  rw [wp_bind, wp_rem]
  have hle := identifier_le s.rem
  split
  · rename_i h
    obtain ⟨t, e⟩ := startsWith_iff.1 h
    split
    · rename_i h1
      have h2 : matchIdentifier (s.rem.drop 1) = 8 := by
        have := congrArg List.length h1
        have h3 := identifier_le (s.rem.drop 1)
        have h4 : (b!"-infinity" : Bytes).length = 9 := rfl
        rw [List.length_take, h4] at this
        rw [List.length_drop] at h3
        omega
      have h3 : (s.rem.drop 1).take 8 = b!"infinity" := by
        rw [h2, e] at h1
        simp [e]
        simpa using h1
      have h4 : Ident (s.rem.drop 1) 8 := by
        rw [← h2]
        exact identifier_ident (by omega)
      have h5 : 8 ≤ (s.rem.drop 1).length := by
        have := congrArg List.length h3
        simp only [List.length_take] at this
        simp at this ⊢
        omega
      rw [wp_bind]
      refine wp_step_emitAdv g (by omega) (by rw [e]; simp) (by simp) (Tok.minus (by simp [e]) h4 h3)
        fun s1 g1 l1 e1 i1 x1 => ?_
      rw [wp_bind]
      refine wp_step_emitAdv g1 (by omega) (by rw [e1]; exact h5) (by simp) ?_ fun s2 g2 l2 e2 i2 x2 => ?_
      · rw [e1]
        exact Tok.infinity h4 h3
      · rw [wp_pure]
        exact Or.inl ⟨rfl, g2, by omega⟩
    · rw [wp_pure]
      refine Or.inr ⟨rfl, rfl, ?_⟩
      rw [e]
      simp [Start, Letter]
  · dsimp only
    split
    · rename_i h0
      rw [wp_pure]
      exact Or.inr ⟨rfl, rfl, identifier_zero h0⟩
    · rename_i h0
      have hi := identifier_ident h0
      rw [wp_bind]
      refine wp_dassert ?_ ?_
      · obtain ⟨⟨c, h1, h2⟩, h3, _⟩ := hi
        rw [List.head?_take, if_neg h0, List.head?_eq_getElem?, h1]
        have : ∀ c : UInt8, isIdStart c = true → isDigit c = false := by
          apply forall_byte
          decide +kernel
        simp [this c ((isIdStart_iff c).2 h2)]
      have done : ∀ {k : Nat} {ty : HT}, k = matchIdentifier s.rem → ty ≠ .none → Tok s.rem k ty →
          wp (HM.emitAdv k ty >>= fun _ => (Pure.pure true : HM Unit Bool)) (fun b s' =>
            (b = true ∧ Good rules env s' ∧ s.idx < s'.idx) ∨
            (b = false ∧ s' = s ∧ ∀ c, s.rem[0]? = some c → ¬ Start c)) env s := by
        intro k ty hk ht hT
        rw [wp_bind]
        refine wp_step_emitAdv g (by omega) (by omega) ht hT fun s1 g1 l1 e1 i1 x1 => ?_
        rw [wp_pure]
        exact Or.inl ⟨rfl, g1, by omega⟩
      have len : ∀ {w : Bytes}, s.rem.take (matchIdentifier s.rem) = w → w.length = matchIdentifier s.rem := by
        intro w hw
        rw [← hw]
        simp
        omega
      split
      · rename_i hw
        rw [wp_bind]
        refine wp_step_emitAdv g (by omega) (by omega) (by simp) (Tok.keyword hi (by simp [hw])) fun s1 g1 l1 e1 i1 x1 => ?_
        refine Goes.after (s' := s1) (by omega) ?_
        rw [wp_bind]
        refine wp_mono (consumeHorizontalBlank_goes g1) fun _ s2 m2 => ?_
        rw [wp_bind]
        refine wp_mono (functionName_goes m2.good) fun _ s3 m3 => ?_
        rw [wp_pure]
        exact ⟨rfl, m2.trans m3⟩
      · rename_i hfun
        split
        · rename_i hw
          exact done rfl (by simp) (Tok.keyword hi (by simp at hw ⊢; grind))
        · rename_i hkw
          split
          · rename_i hw
            have := len hw
            have e : 4 = matchIdentifier s.rem := by simpa using this
            exact done e (by simp) (e ▸ Tok.boolean hi (by simp [hw]))
          · split
            · rename_i hw
              have := len hw
              have e : 5 = matchIdentifier s.rem := by simpa using this
              exact done e (by simp) (e ▸ Tok.boolean hi (by simp [hw]))
            · split
              · rename_i hw
                have := len hw
                have e : 8 = matchIdentifier s.rem := by simpa using this
                exact done e (by simp) (e ▸ Tok.infinity hi hw)
              · obtain ⟨m, hb, he⟩ := not_call hc h0
                refine done rfl (by simp) (Tok.variable_ hi ?_ hb he)
                simp [words]
                simp at *
                grind

theorem expectNumber_spec : ExpectsOr rules expectNumber
    (fun s => ∀ c, s.rem[0]? = some c → ¬ (Letter c ∨ DecDigit c ∨ c = c!".")) := by
  intro env s g
  unfold expectNumber
  rw [wp_bind, wp_rem]
  dsimp only
  obtain ⟨hN, hle⟩ := matchReservedNumber_facts s.rem
  split
  · rename_i h0
    rw [wp_pure]
    exact Or.inr ⟨rfl, rfl, reserved_zero h0⟩
  · rename_i h0
    split
    · rename_i h1
      rw [wp_bind]
      refine wp_step_emitAdv g (by omega) hle (by simp) (Tok.badNumber hN ?_) fun s1 g1 l1 e1 i1 x1 => ?_
      · intro hw
        have := number_complete hw
        simp [this] at h1
        omega
      · rw [wp_pure]
        exact Or.inl ⟨rfl, g1, by omega⟩
    · rename_i h1
      simp at h1
      rw [wp_bind]
      rcases C23_parts (s.rem.take (matchReservedNumber s.rem)) numberOptions (fun f h => (fits.matchSuffix f h).1) with
        h | ⟨p, hp⟩
      · rw [h] at h1
        exact absurd h1.1.symm h0
      obtain ⟨rest, ht⟩ := hp.text
      refine wp_number_of (rest := rest ++ s.rem.drop (matchReservedNumber s.rem)) (N := numerals) (by simp) fits.base.1
        (fun s n ty h => Tok.number h) (fits.parts hp) hp.lengths ?_ (by simp [h1.2]) g ?_
      · rw [← List.append_assoc, ← ht, List.take_append_drop]
      · intro s1 g1 l1 e1 i1 x1
        rw [wp_pure]
        exact Or.inl ⟨rfl, g1, by omega⟩

/-! ## Expressions -/

/-- What the recursive calls do if fewer than `n` bytes are left. -/
structure Ok (n : Nat) (again : Call → HM Unit Unit) : Prop where
  goes : ∀ c env s, Good rules env s → s.rem.length < n → Goes env s (again c)
  name : ∀ env s m, Good rules env s → s.rem.length < n → NameEnds s.rem m →
    wp (again (.text .memberName)) (fun _ s' => Good rules env s' ∧ s'.rem = s.rem.drop (m - 1) ∧
      s'.idx = s.idx + (m - 1)) env s

variable {n : Nat} {again : Call → HM Unit Unit}

theorem enclosed_spec {first last : Bytes} {ty : HT} {k : Kind} (ok : Ok n again) (hf : first ≠ []) (hl : last ≠ [])
    (ht : ty ≠ .none) (Tf : ∀ s : Bytes, s.take first.length = first → Tok s first.length ty)
    (Tl : ∀ s : Bytes, s.take last.length = last → Tok s last.length ty) (g : Good rules env s)
    (hn : s.rem.length ≤ n) : Tries env s (startsWith s.rem first = false) (enclosed again first last ty k) := by
  unfold enclosed Tries
  rw [wp_bind]
  refine wp_mono (emitIfStarts_spec hf ht Tf env s g) ?_
  rintro _ s1 (⟨rfl, g1, h1⟩ | ⟨rfl, rfl, h⟩)
  · simp only [if_true]
    have := g.len
    have := g1.len
    refine Goes.after h1 ?_
    rw [wp_bind]
    refine wp_mono (ok.goes _ env s1 g1 (by omega)) fun _ s2 m2 => ?_
    rw [wp_bind]
    refine wp_mono (Tries.goes m2.good (emitIfStarts_spec hl ht Tl env s2 m2.good)) fun _ s3 m3 => ?_
    rw [wp_pure]
    exact ⟨rfl, m2.trans m3⟩
  · simp only [Bool.false_eq_true, if_false]
    rw [wp_pure]
    exact Or.inr ⟨rfl, rfl, h⟩

theorem expectQuotedString_spec (ok : Ok n again) (g : Good rules env s) (hn : s.rem.length ≤ n) :
    Tries env s (startsWith s.rem b!"\"" = false) (expectQuotedString again) :=
  enclosed_spec ok (by simp) (by simp) (by simp) (fun _ h => .quote h) (fun _ h => .quote h) g hn

theorem expectBlock_spec (ok : Ok n again) (g : Good rules env s) (hn : s.rem.length ≤ n) :
    Tries env s (startsWith s.rem b!"{" = false) (expectBlock again) :=
  enclosed_spec ok (by simp) (by simp) (by simp) (fun s h => .brace (by simp at h; simp [h]))
    (fun s h => .brace (by simp at h; simp [h])) g hn

theorem expectGroup_spec (ok : Ok n again) (g : Good rules env s) (hn : s.rem.length ≤ n) :
    Tries env s (startsWith s.rem b!"(" = false) (expectGroup again) := by
  unfold expectGroup Tries
  rw [wp_bind]
  refine wp_mono (emitIfStarts_spec (w := b!"(") (ty := .symbol_parens) (by simp) (by simp)
    (fun s h => .parens (by simp at h; simp [h])) env s g) ?_
  rintro _ s1 (⟨rfl, g1, h1⟩ | ⟨rfl, rfl, h⟩)
  · simp only [if_true]
    have := g.len
    have := g1.len
    refine Goes.after h1 ?_
    rw [wp_bind]
    refine wp_mono (ok.goes _ env s1 g1 (by omega)) fun _ s2 m2 => ?_
    rw [wp_pure]
    exact ⟨rfl, m2⟩
  · simp only [Bool.false_eq_true, if_false]
    rw [wp_pure]
    exact Or.inr ⟨rfl, rfl, h⟩

theorem expectCall_spec (ok : Ok n again) (g : Good rules env s) (hn : s.rem.length ≤ n) :
    Tries env s (isCall s.rem = false) (expectCall again) := by
  unfold expectCall Tries
  rw [wp_bind, wp_rem]
  split
  · rename_i h
    have hc := h
    unfold isCall at h
    simp only [Bool.and_eq_true, decide_eq_true_eq, Option.any_eq_true] at h
    obtain ⟨h0, c, h1, h2⟩ := h
    rw [wp_bind]
    refine wp_step_emitAdv g (by omega) (identifier_le _) (by simp)
      (Tok.call (identifier_ident h0) (matchBlank_spec _).1 ⟨c, by simp at h2 ⊢; exact h2, h1⟩)
      fun s1 g1 l1 e1 i1 x1 => ?_
    have lg := g.len
    refine Goes.after (s' := s1) (by omega) ?_
    rw [wp_bind]
    refine wp_mono (consumeBlank_goes g1) fun _ s2 m2 => ?_
    have := m2.length g1
    rw [wp_bind]
    refine wp_mono (Tries.goes m2.good (expectGroup_spec ok m2.good (by omega))) fun _ s3 m3 => ?_
    have := m3.length m2.good
    rw [wp_bind]
    refine wp_mono (consumeBlank_goes m3.good) fun _ s4 m4 => ?_
    have := m4.length m3.good
    rw [wp_bind]
    refine wp_mono (Tries.goes m4.good (expectBlock_spec ok m4.good (by omega))) fun _ s5 m5 => ?_
    rw [wp_pure]
    exact ⟨rfl, ((m2.trans m3).trans m4).trans m5⟩
  · rename_i h
    rw [wp_pure]
    exact Or.inr ⟨rfl, rfl, by simpa using h⟩

/-- Why there is no expression. -/
def NoExpression (s : Bytes) : Prop := ∀ c, s[0]? = some c → ¬ Continue c ∧ c ∉ b!"({.\""

theorem expectExpression_spec (ok : Ok n again) (g : Good rules env s) (hn : s.rem.length ≤ n) :
    Tries env s (NoExpression s.rem) (expectExpression again) := by
  unfold expectExpression expectPrimary
  refine ((expectCall_spec ok g hn).or fun hc => ((expectIdentifierLike_spec g hc).or fun _ =>
    ((Tries.of expectNumber_spec g).or fun _ => ((expectQuotedString_spec ok g hn).or fun _ =>
      ((expectBlock_spec ok g hn).or fun _ => expectGroup_spec ok g hn))))).mono ?_
  rintro ⟨h1, h2, h3, h4, h5, h6⟩ c hc
  have e : ∃ t, s.rem = c :: t := by
    match s.rem, hc with
    | a :: t, hc => simp at hc; exact ⟨t, by rw [hc]⟩
  obtain ⟨t, e⟩ := e
  rw [e] at h4 h5 h6
  have h2 := h2 c hc
  have h3 := h3 c hc
  unfold Continue
  simp at h4 h5 h6 h3 ⊢
  grind

theorem soup_spec (g : Good rules env s) (hne : s.rem ≠ []) (hsp : ∀ c, s.rem[0]? = some c → ¬ Space c) :
    wp soup (fun _ s' => Good rules env s' ∧ s.idx < s'.idx) env s := by
  unfold soup
  rw [wp_bind, wp_rem]
  have hlen := List.length_pos_iff.2 hne
  rcases memberToken_facts s.rem with ⟨w, ty, h, h1, h2, h3, h4, h5⟩ | ⟨h, h1⟩
  · rw [h]
    unfold emitFixed
    have : ty ≠ .none := by
      have : ∀ x ∈ symbols, x.2 ≠ .none := by decide +kernel
      exact this _ h1
    exact wp_step_emitAdv g h3 h4 this (Tok.symbol h5 (by simpa [h2] using h1)) fun s1 g1 l1 e1 i1 x1 =>
      ⟨g1, by simp at i1; omega⟩
  · rw [h]
    obtain ⟨c, t, e⟩ := List.exists_cons_of_ne_nil hne
    exact wp_step_emitAdv g (by omega) (by omega) (by simp) (Tok.unknown (c := c) rfl (by simp [e]) (hsp c (by simp [e])) h1)
      fun s1 g1 l1 e1 i1 x1 => ⟨g1, by omega⟩

/-! ## Groups -/

theorem memberValue_spec (ok : Ok n again) (g : Good rules env s) (hn : s.rem.length ≤ n)
    (hsp : matchWhitespace s.rem = 0) :
    Tries env s (NoExpression s.rem ∧ ∀ w ∈ symbols, ¬ OccursAt w.1 s.rem 0) (memberValue again) := by
  unfold memberValue Tries
  rw [wp_bind, wp_rem, hsp, wp_bind, wp_advance_iff (by omega)]
  have e0 : s.adv 0 = s := by simp [HS.adv]
  rw [e0, wp_bind]
  refine wp_mono ((Tries.of expectEllipsis_spec g).or fun _ => expectExpression_spec ok g hn) ?_
  rintro _ s1 (⟨rfl, g1, h1⟩ | ⟨rfl, rfl, h⟩)
  · simp only [if_true]
    rw [wp_pure]
    exact Or.inl ⟨rfl, g1, h1⟩
  · simp only [Bool.false_eq_true, if_false]
    rw [wp_bind, wp_rem]
    rcases memberToken_facts s1.rem with ⟨w, ty, h0, h1, h2, h3, h4, h5⟩ | ⟨h0, h1⟩
    · rw [h0]
      simp only
      unfold emitFixed
      have : ty ≠ .none := by
        have : ∀ x ∈ symbols, x.2 ≠ .none := by decide +kernel
        exact this _ h1
      rw [wp_bind]
      refine wp_step_emitAdv g h3 h4 this (Tok.symbol h5 (by simpa [h2] using h1)) fun s1 g1 l1 e1 i1 x1 => ?_
      rw [wp_pure]
      exact Or.inl ⟨rfl, g1, by simp at i1; omega⟩
    · rw [h0]
      simp only
      rw [wp_pure]
      exact Or.inr ⟨rfl, rfl, h.2, h1⟩

theorem nameEnds_tail {s : Bytes} (h : matchIdentifier s = 0) (h0 : nameLength s ≠ 0) :
    ∃ t, s = c!"\"" :: t ∧ NameEnds t (nameLength s - 1) := by
  have e : nameLength s = matchQuotedName s := by
    unfold nameLength
    rw [if_neg (by simp [h])]
  rw [e] at h0 ⊢
  exact matchQuotedName_facts h0

theorem memberName_spec (ok : Ok n again) (g : Good rules env s) (hn : s.rem.length ≤ n) (h : isNamed s.rem = true) :
    wp (memberName again (nameLength s.rem)) (fun _ s' => Good rules env s' ∧
      s'.rem = s.rem.drop (nameLength s.rem) ∧ s'.idx = s.idx + nameLength s.rem) env s := by
  unfold isNamed at h
  simp only [Bool.and_eq_true, decide_eq_true_eq] at h
  obtain ⟨⟨h0, h1⟩, h2⟩ := h
  unfold memberName expectQuotedName enclosed emitIfStarts
  by_cases hi : matchIdentifier s.rem = 0
  · obtain ⟨t, e, hN⟩ := nameEnds_tail hi h0
    have hlast := hN.last
    have hpos := hN.pos
    generalize nameLength s.rem = m at *
    simp only [wp_bind, wp_rem]
    rw [if_pos (by simp [e]), wp_bind]
    refine wp_step_emitAdv g (by simp) (by simp [e]) (by simp) (Tok.attrDelim (by simp [e])) fun s1 g1 l1 e1 i1 x1 => ?_
    rw [wp_pure]
    simp only [if_true]
    have e1 : s1.rem = t := by simpa [e] using e1
    have lg := g.len
    have i1 : s1.idx = s.idx + 1 := by simpa using i1
    rw [wp_bind]
    refine wp_mono (ok.name env s1 (m - 1) g1 (by omega) (by rw [e1]; exact hN)) ?_
    rintro _ s2 ⟨g2, e2, i2⟩
    have hq : ∃ u, s2.rem = c!"\"" :: u := by
      rw [← List.head?_eq_some_iff, e2, e1, List.head?_drop]
      exact hlast
    obtain ⟨u, hu⟩ := hq
    simp only [wp_bind, wp_rem]
    rw [if_pos (by simp [hu]), wp_bind]
    refine wp_step_emitAdv g2 (by simp) (by simp [hu]) (by simp) (Tok.attrDelim (by simp [hu])) fun s3 g3 l3 e3 i3 x3 => ?_
    simp only [wp_pure, if_true]
    simp only [List.length_cons, List.length_nil] at e3 i3
    refine ⟨g3, ?_, by omega⟩
    rw [e3, e2, e1, e, List.drop_drop]
    obtain ⟨m, rfl⟩ : ∃ k, m = k + 2 := ⟨m - 2, by omega⟩
    simp
  · have hid := identifier_ident hi
    have e : nameLength s.rem = matchIdentifier s.rem := by
      unfold nameLength
      rw [if_pos hi]
    rw [e] at h1 h2 ⊢
    have hq : startsWith s.rem b!"\"" = false := by
      obtain ⟨⟨c, h3, h4⟩, _⟩ := hid
      match s.rem, h3 with
      | a :: t, h3 =>
        simp at h3
        subst h3
        have : a ≠ c!"\"" := by
          rintro rfl
          simp [Start, Letter] at h4
        simp [startsWith_cons_cons]
        grind
    simp only [wp_bind, wp_rem]
    rw [if_neg (by simp [hq]), wp_pure]
    simp only [Bool.false_eq_true, if_false]
    rw [wp_pure]
    simp only [Bool.false_eq_true, if_false]
    refine wp_step_emitAdv g (by omega) (identifier_le _) (by simp) (Tok.attr hid (matchBlank_spec _).1 ?_ ?_)
      fun s1 g1 l1 e1 i1 x1 => ⟨g1, e1, i1⟩
    · simpa using h1
    · simpa using h2

theorem expectMember_spec (ok : Ok n again) (g : Good rules env s) (hn : s.rem.length ≤ n)
    (hsp : matchBlank s.rem = 0) :
    Tries env s (NoExpression s.rem ∧ ∀ w ∈ symbols, ¬ OccursAt w.1 s.rem 0) (expectMember again) := by
  have hw : matchWhitespace s.rem = 0 := by
    have := matchBlank_eq s.rem
    rw [hsp] at this
    refine Classical.byContradiction fun h0 => ?_
    rw [if_pos h0] at this
    omega
  unfold expectMember Tries
  rw [wp_bind, wp_rem]
  split
  · rename_i h
    have hnm := h
    unfold isNamed at h
    simp only [Bool.and_eq_true, decide_eq_true_eq] at h
    obtain ⟨⟨h0, h1⟩, h2⟩ := h
    rw [wp_bind]
    refine wp_mono (memberName_spec ok g hn hnm) ?_
    rintro _ s1 ⟨g1, e1, i1⟩
    refine Goes.after (s' := s1) (by omega) ?_
    rw [wp_bind]
    refine wp_mono (consumeBlank_wp g1) ?_
    rintro _ s2 c2
    have e2 := c2.2.1
    rw [e1, List.drop_drop] at e2
    have hq : ∃ u, s2.rem = c!"=" :: u := by
      rw [← List.head?_eq_some_iff, e2, List.head?_eq_getElem?]
      exact h1
    obtain ⟨u, hu⟩ := hq
    rw [wp_bind, wp_rem, wp_bind, wp_hassert]
    refine ⟨by simp [hu], ?_⟩
    rw [wp_bind]
    have h2 : (s2.rem)[1]? ≠ some c!"=" := by rw [e2]; exact h2
    refine wp_step_emitAdv c2.1 (by omega) (by simp [hu]) (by simp) (Tok.symbol ?_ (by simp [hu, symbols]))
      fun s3 g3 l3 e3 i3 x3 => ?_
    · rw [hu] at h2 ⊢
      refine longestIn_of (w := b!"=") (by simp [symbols]) (by simp) ?_
      have := h2
      match u, h2 with
      | [], _ => decide
      | a :: u, h2 =>
        intro v hv hl
        simp at h2
        simp [symbols] at hv
        rcases hv with rfl | rfl | rfl | rfl | rfl | rfl | rfl | rfl | rfl | rfl | rfl | rfl | rfl | rfl | rfl | rfl <;>
          simp [startsWith_cons_cons] at hl ⊢
        grind
    · have lg := g.len
      have lg1 := g1.len
      have lg2 := c2.1.len
      have := c2.2.2.1
      rw [wp_bind]
      refine wp_mono (consumeBlank_goes g3) fun _ s4 m4 => ?_
      have := m4.length g3
      rw [wp_bind]
      refine wp_mono (Tries.goes m4.good (expectExpression_spec ok m4.good (by omega))) fun _ s5 m5 => ?_
      rw [wp_pure]
      refine ⟨rfl, m5.good, ?_⟩
      have := m4.le
      have := m5.le
      omega
  · exact memberValue_spec ok g hn hw

theorem recover_spec (g : Good rules env s) (hsp : ∀ c, s.rem[0]? = some c → ¬ Space c)
    (he : NoExpression s.rem) (hs : ∀ w ∈ symbols, ¬ OccursAt w.1 s.rem 0)
    (hf : ∀ c, s.rem[0]? = some c → c ∉ b!",})") :
    wp recover (fun r s' => match r with
      | .inl _ => Good rules env s' ∧ s.idx < s'.idx
      | .inr _ => Moved rules env s s') env s := by
  unfold recover
  rw [wp_bind, wp_rem]
  have hfirst : ∀ c, s.rem[0]? = some c → ¬ Space c ∧ ¬ Continue c ∧ c ∉ b!"({.\"" :=
    fun c hc => ⟨hsp c hc, he c hc⟩
  rcases find_if_longest s.rem (b!",})").contains (fun c => c ∉ b!",})") (by simp) 0 (by omega) with
    ⟨k, c, hk, _, h1, h2, h3, hL⟩ | ⟨hk, hL⟩
  · rw [hk]
    simp only [Nat.sub_zero, List.drop_zero] at hL
    simp only
    rw [wp_bind]
    refine wp_step_advance g (by omega) (Gap.junk hL hs hfirst) fun s1 g1 l1 e1 i1 x1 => ?_
    have hk0 : k ≠ 0 := by
      rintro rfl
      exact hf c h2 (by simpa using h3)
    have e : ∃ t, s1.rem = c :: t := by
      rw [← List.head?_eq_some_iff, e1, List.head?_drop]
      exact h2
    obtain ⟨t, e⟩ := e
    rw [wp_bind, wp_rem]
    split
    · rw [wp_pure]
      exact ⟨g1, by omega⟩
    · rename_i hcomma
      rw [wp_bind]
      refine wp_step_emitAdv g1 (by omega) (by simp [e]) (by split <;> simp) ?_ fun s2 g2 l2 e2 i2 x2 => ?_
      · rw [e] at hcomma ⊢
        simp at h3 hcomma
        rcases h3 with rfl | rfl | rfl
        · exact absurd rfl hcomma
        · exact Tok.brace (by simp)
        · exact Tok.parens (by simp)
      · rw [wp_pure]
        exact ⟨g2, by omega⟩
  · rw [hk]
    simp only [Nat.sub_zero, List.drop_zero] at hL
    simp only
    rw [wp_bind]
    refine wp_step_advance g (by omega) (Gap.junk hL hs hfirst) fun s1 g1 l1 e1 i1 x1 => ?_
    rw [wp_pure]
    exact ⟨g1, by omega⟩

theorem ne_first {s : Bytes} {w : UInt8} (h : startsWith s [w] = false) : s[0]? ≠ some w := by
  match s with
  | [] => simp
  | c :: t =>
    simp [startsWith_cons_cons] at h ⊢
    grind

theorem groupStep_spec (ok : Ok n again) (g : Good rules env s) (hn : s.rem.length ≤ n) :
    wp (groupStep again ()) (fun r s' => match r with
      | .inl _ => Good rules env s' ∧ s.idx < s'.idx
      | .inr _ => Moved rules env s s') env s := by
  unfold groupStep
  rw [wp_bind, wp_rem]
  split
  · rw [wp_pure]
    exact Moved.refl g
  rw [wp_bind]
  refine wp_mono (consumeBlank_wp g) fun _ s1 c1 => ?_
  have hb : matchBlank s1.rem = 0 := by
    rw [c1.2.1]
    exact matchBlank_done _
  have := c1.length
  have := c1.2.2.1
  rw [wp_bind]
  refine wp_mono (expectMember_spec ok c1.1 (by omega) hb) fun member s2 hm => ?_
  have g2 : Good rules env s2 := by
    rcases hm with ⟨_, g2, _⟩ | ⟨_, rfl, _⟩
    · exact g2
    · exact c1.1
  rw [wp_bind]
  refine wp_mono (consumeBlank_wp g2) fun _ s3 c3 => ?_
  have g3 := c3.1
  have := c3.2.2.1
  have i3 : s.idx ≤ s3.idx := by
    rcases hm with ⟨_, _, _⟩ | ⟨_, rfl, _⟩ <;> omega
  unfold groupNext
  rw [wp_bind, wp_rem]
  split
  · rw [wp_pure]
    exact ⟨g3, i3⟩
  split
  · rename_i h
    obtain ⟨h1, h2⟩ := startsWith_facts h _ rfl
    rw [wp_bind]
    refine wp_step_emitAdv g3 (by omega) h1 (by simp) (Tok.parens (by simp at h2; simp [h2])) fun s4 g4 l4 e4 i4 x4 => ?_
    rw [wp_pure]
    exact ⟨g4, by omega⟩
  rename_i hparen
  split
  · rename_i h
    obtain ⟨h1, h2⟩ := startsWith_facts h _ rfl
    rw [wp_bind]
    refine wp_step_emitAdv g3 (by omega) h1 (by simp) (Tok.comma h2) fun s4 g4 l4 e4 i4 x4 => ?_
    rw [wp_pure]
    exact ⟨g4, by omega⟩
  rename_i hcomma
  split
  · rw [wp_pure]
    exact ⟨g3, i3⟩
  rename_i hbrace
  rcases hm with ⟨rfl, _, h2⟩ | ⟨rfl, rfl, h2, h4⟩
  · simp only [if_true]
    rw [wp_pure]
    exact ⟨g3, by omega⟩
  · simp only [Bool.false_eq_true, if_false]
    have e3 := c3.2.1
    rw [hb, List.drop_zero] at e3
    refine wp_mono (recover_spec g3 ?_ ?_ ?_ ?_) ?_
    · rw [e3]
      exact blank_first hb
    · rw [e3]
      exact h2
    · rw [e3]
      exact h4
    · have a1 := ne_first (w := c!")") (by simpa using hparen)
      have a2 := ne_first (w := c!",") (by simpa using hcomma)
      have a3 := ne_first (w := c!"}") (by simpa using hbrace)
      intro c hc
      rw [hc] at a1 a2 a3
      simp at a1 a2 a3 ⊢
      exact ⟨a2, a3, a1⟩
    · rintro (_ | _) s4 h
      · exact ⟨h.1, by have := h.2; omega⟩
      · exact ⟨h.good, by have := h.le; omega⟩

theorem groupRest_spec (ok : Ok n again) (g : Good rules env s) (hn : s.rem.length ≤ n) :
    Goes env s (groupRest again) := by
  unfold groupRest Goes
  rw [wp_bind, wp_rem]
  refine wp_loop_moved (R := rules) (fun _ s1 => s.idx ≤ s1.idx) ?_ g (by omega) (by omega)
  rintro _ s1 g1 l1 i1 _
  have := g.len
  refine wp_mono (groupStep_spec ok g1 (by omega)) ?_
  rintro (_ | _) s2 h
  · exact ⟨h.1, h.2, by have := h.2; omega⟩
  · exact ⟨h.good, by have := h.le; omega⟩

/-! ## Text -/

theorem spliceStep_spec (ok : Ok n again) (g : Good rules env s) (hn : s.rem.length ≤ n) :
    wp (spliceStep again ()) (fun r s' => match r with
      | .inl _ => Good rules env s' ∧ s.idx < s'.idx
      | .inr _ => Moved rules env s s') env s := by
  unfold spliceStep
  rw [wp_bind, wp_rem]
  split
  · rw [wp_pure]
    exact Moved.refl g
  rw [wp_bind]
  refine wp_mono (consumeBlank_goes g) fun _ s1 m1 => ?_
  have := m1.length g
  have := m1.le
  rw [wp_bind]
  refine wp_mono (Tries.goes m1.good (expectExpression_spec ok m1.good (by omega))) fun _ s2 m2 => ?_
  have := m2.le
  rw [wp_bind]
  refine wp_mono (consumeBlank_wp m2.good) fun _ s3 c3 => ?_
  have := c3.2.2.1
  have g3 := c3.1
  have hb : matchBlank s3.rem = 0 := by
    rw [c3.2.1]
    exact matchBlank_done _
  rw [wp_bind, wp_rem]
  split
  · rw [wp_pure]
    exact ⟨g3, by omega⟩
  rename_i hne
  split
  · rename_i h
    obtain ⟨h1, h2⟩ := startsWith_facts h _ rfl
    rw [wp_bind]
    refine wp_step_emitAdv g3 (by omega) h1 (by simp) (Tok.splice (by simp at h2; simp [h2])) fun s4 g4 l4 e4 i4 x4 => ?_
    rw [wp_pure]
    exact ⟨g4, by omega⟩
  split
  · rw [wp_pure]
    exact ⟨g3, by omega⟩
  rw [wp_bind]
  refine wp_mono (soup_spec g3 (by simpa using hne) (blank_first hb)) ?_
  rintro _ s4 ⟨g4, h4⟩
  rw [wp_pure]
  exact ⟨g4, by omega⟩

theorem expectSplice_spec (ok : Ok n again) (g : Good rules env s) (hn : s.rem.length ≤ n) :
    Tries env s (startsWith s.rem b!"\\(" = false) (expectSplice again) := by
  unfold expectSplice Tries
  rw [wp_bind]
  refine wp_mono (emitIfStarts_spec (w := b!"\\(") (ty := .string_interpolation_delim) (by simp) (by simp)
    (fun s h => .splice (by simp at h; simp [h])) env s g) ?_
  rintro _ s1 (⟨rfl, g1, h1⟩ | ⟨rfl, rfl, h⟩)
  · simp only [if_true]
    have := g.len
    refine Goes.after h1 ?_
    rw [wp_bind, wp_rem, wp_bind]
    refine wp_loop_moved (R := rules) (fun _ s2 => s1.idx ≤ s2.idx) ?_ g1 (by omega) (by omega)
    rintro _ s2 g2 l2 i2 _
    refine wp_mono (spliceStep_spec ok g2 (by omega)) ?_
    rintro (_ | _) s3 h
    · exact ⟨h.1, h.2, by have := h.2; omega⟩
    · simp only
      rw [wp_pure]
      exact ⟨rfl, h.good, by have := h.le; omega⟩
  · simp only [Bool.false_eq_true, if_false]
    rw [wp_pure]
    exact Or.inr ⟨rfl, rfl, h⟩

theorem lineStep_spec (ok : Ok n again) (g : Good rules env s) (hn : s.rem.length ≤ n) :
    wp (lineStep again ()) (fun r s' => match r with
      | .inl _ => Good rules env s' ∧ s.idx < s'.idx
      | .inr _ => Moved rules env s s') env s := by
  unfold lineStep
  rw [wp_bind, wp_rem]
  split
  · rw [wp_pure]
    exact Moved.refl g
  rename_i hne
  split
  · rename_i h
    obtain ⟨h1, h2⟩ := startsWith_facts h _ rfl
    rw [wp_bind]
    refine wp_step_advance g h1 (Gap.newline (by simp at h2; simp [h2])) fun s1 g1 l1 e1 i1 x1 => ?_
    rw [wp_pure]
    exact ⟨g1, by omega⟩
  split
  · rename_i h
    have h : s.rem.take 1 ∈ ([[0x0A], [0x0D], [0x0D, 0x0A]] : List Bytes) ∧ 1 ≤ s.rem.length := by
      simp only [Bool.or_eq_true] at h
      rcases h with h | h <;> obtain ⟨h1, h2⟩ := startsWith_facts h _ rfl <;> simp at h1 h2 <;>
        exact ⟨by simp [h2], by omega⟩
    rw [wp_bind]
    refine wp_step_advance g h.2 (Gap.newline h.1) fun s1 g1 l1 e1 i1 x1 => ?_
    rw [wp_pure]
    exact ⟨g1, by omega⟩
  rw [wp_bind]
  refine wp_mono ((Tries.of expectEscape_spec g).or fun _ => (Tries.of expectLineComment_spec g).or fun _ =>
    (Tries.of expectBlockComment_spec g).or fun _ => expectExpression_spec ok g hn) ?_
  rintro _ s1 (⟨rfl, g1, h1⟩ | ⟨rfl, rfl, h⟩)
  · simp only [if_true]
    rw [wp_pure]
    exact ⟨g1, h1⟩
  · simp only [Bool.false_eq_true, if_false]
    split
    · rename_i hw
      rw [wp_bind]
      refine wp_step_advance g (whitespace_facts _).1 (Gap.space (whitespace_facts _).2) fun s2 g2 l2 e2 i2 x2 => ?_
      rw [wp_pure]
      exact ⟨g2, by omega⟩
    · rename_i hw
      rw [wp_bind]
      refine wp_mono (soup_spec g (by simpa using hne) (whitespace_zero (by simpa using hw))) ?_
      rintro _ s4 ⟨g4, h4⟩
      rw [wp_pure]
      exact ⟨g4, h4⟩

theorem expectLineSplice_spec (ok : Ok n again) (g : Good rules env s) (hn : s.rem.length ≤ n) :
    Tries env s (startsWith s.rem b!"\\ " = true → ∀ c ∈ s.rem.drop 2, InLine c) (expectLineSplice again) := by
  unfold expectLineSplice Tries
  rw [wp_bind, wp_rem]
  split
  · rename_i h
    simp only [Bool.and_eq_true, List.any_eq_true] at h
    obtain ⟨h0, c, hc, h1⟩ := h
    obtain ⟨h2, h3⟩ := startsWith_facts h0 _ rfl
    rw [wp_bind]
    refine wp_step_emitAdv g (by omega) h2 (by simp) (Tok.lineSplice h3 hc ((not_inLine_iff c).1 (by simpa using h1)))
      fun s1 g1 l1 e1 i1 x1 => ?_
    have := g.len
    refine Goes.after (s' := s1) (by omega) ?_
    rw [wp_bind, wp_rem, wp_bind]
    refine wp_loop_moved (R := rules) (fun _ s2 => s1.idx ≤ s2.idx) ?_ g1 (by omega) (by omega)
    rintro _ s2 g2 l2 i2 _
    refine wp_mono (lineStep_spec ok g2 (by omega)) ?_
    rintro (_ | _) s3 h
    · exact ⟨h.1, h.2, by have := h.2; omega⟩
    · simp only
      rw [wp_pure]
      exact ⟨rfl, h.good, by have := h.le; omega⟩
  · rename_i h
    rw [wp_pure]
    refine Or.inr ⟨rfl, rfl, fun h0 c hc => ?_⟩
    refine Classical.byContradiction fun h1 => h ?_
    simp only [Bool.and_eq_true, List.any_eq_true]
    exact ⟨h0, c, hc, by simpa using (not_inLine_iff c).2 h1⟩

theorem expectDirective_spec (ok : Ok n again) (g : Good rules env s) (hn : s.rem.length ≤ n) :
    Tries env s (startsWith s.rem b!"\\" = true → ∀ c, s.rem[1]? = some c → ¬ Start c) (expectDirective again) := by
  unfold expectDirective Tries
  rw [wp_bind, wp_rem]
  split
  · rename_i h
    simp only [Bool.and_eq_true, decide_eq_true_eq] at h
    obtain ⟨h0, h1⟩ := h
    obtain ⟨h2, h3⟩ := startsWith_facts h0 _ rfl
    have h4 := identifier_le (s.rem.drop 1)
    simp only [List.length_cons, List.length_nil, List.length_drop] at h2 h4
    rw [wp_bind]
    refine wp_step_emitAdv g (by omega) (by omega) (by simp) (Tok.tag h3 (identifier_ident h1)) fun s1 g1 l1 e1 i1 x1 => ?_
    have := g.len
    refine Goes.after (s' := s1) (by omega) ?_
    rw [wp_bind]
    refine wp_mono (Tries.goes g1 (expectGroup_spec ok g1 (by omega))) fun _ s2 m2 => ?_
    have := m2.length g1
    rw [wp_bind]
    refine wp_mono (Tries.goes m2.good (expectBlock_spec ok m2.good (by omega))) fun _ s3 m3 => ?_
    rw [wp_pure]
    exact ⟨rfl, m2.trans m3⟩
  · rename_i h
    rw [wp_pure]
    refine Or.inr ⟨rfl, rfl, fun h0 => ?_⟩
    rw [h0] at h
    simp at h
    have := identifier_zero h
    simpa using this

/-- Why text is not markup. -/
def NoMarkup (s : Bytes) : Prop := s[0]? = some c!"\\" → s.take 2 = b!"\\ " ∧ ∀ c ∈ s.drop 2, InLine c

theorem expectMarkup_spec (ok : Ok n again) (g : Good rules env s) (hn : s.rem.length ≤ n) :
    Tries env s (NoMarkup s.rem) (expectMarkup again) := by
  unfold expectMarkup
  refine ((Tries.of expectEscape_spec g).or fun _ => (expectDirective_spec ok g hn).or fun _ =>
    (expectSplice_spec ok g hn).or fun _ => (expectLineSplice_spec ok g hn).or fun _ =>
      (Tries.of expectLineComment_spec g).or fun _ => .of expectBlockComment_spec g).mono ?_
  rintro ⟨h1, h2, h3, h4, h5, h6⟩ hb
  rcases matchEscape_facts s.rem with ⟨_, h⟩ | ⟨_, h⟩
  · obtain ⟨c, hc, h⟩ := h hb
    have h5 := lineComment_zero h5
    have h6 := blockComment_zero h6
    match hr : s.rem with
    | [] => simp [hr] at hb
    | [a] => simp [hr] at hc
    | a :: b :: t =>
      simp [hr] at hb hc
      subst hb hc
      rw [hr] at h2 h3 h4 h5 h6
      simp [startsWith_cons_cons] at h2 h3 h4 h5 h6
      simp at h
      rcases h with h | rfl | rfl | rfl | rfl
      · exact absurd h h2
      · exact absurd rfl h5
      · exact absurd rfl h6
      · exact absurd rfl h3
      · exact ⟨by simp, by simpa using h4⟩
  · have := h.1
    omega

theorem emitText_spec {k : Kind} {level : Int} (g : Good rules env s) :
    Tries env s ((textScan k level s.rem).1 = 0) (emitText k (textScan k level s.rem).1) := by
  obtain ⟨h1, h2, h3, h4, h5⟩ := textScan_facts k level s.rem
  generalize textScan k level s.rem = r at *
  have hL : (k = .memberName ∨ k = .string) → Longest (fun c => c ≠ c!"\\" ∧ c ≠ c!"\"") s.rem r.1 := by
    intro hk
    refine ⟨fun c hc => ⟨h2 c hc, h4 hk c hc⟩, fun c hc => ?_⟩
    rcases h3 with h3 | h3 | ⟨_, h3⟩ | ⟨_, h3⟩
    · rw [h3] at hc
      simp at hc
    · rw [h3] at hc
      simp at hc
      simp [← hc]
    · rw [h3] at hc
      simp at hc
      grind
    · rw [h3] at hc
      simp at hc
      simp [← hc]
  have hG : (k = .document ∨ k = .block) → Gap s.rem r.1 := by
    intro hk
    refine Gap.text h2 ?_
    rcases h3 with h3 | h3 | ⟨_, h3⟩ | ⟨h, h3⟩
    · exact Or.inl h3
    · exact Or.inr (Or.inl h3)
    · exact Or.inr (Or.inr h3)
    · grind
  unfold emitText Tries
  split
  · rename_i h0
    rw [wp_pure]
    exact Or.inr ⟨rfl, rfl, h0⟩
  · rename_i h0
    cases k with
    | document | block =>
      simp only [textType]
      rw [wp_bind]
      refine wp_step_advance g h1 (hG (by simp)) fun s1 g1 l1 e1 i1 x1 => ?_
      rw [wp_pure]
      exact Or.inl ⟨rfl, g1, by omega⟩
    | memberName =>
      simp only [textType]
      rw [wp_bind]
      refine wp_step_emitAdv g (by omega) h1 (by simp) (Tok.quotedAttr (hL (by simp))) fun s1 g1 l1 e1 i1 x1 => ?_
      rw [wp_pure]
      exact Or.inl ⟨rfl, g1, by omega⟩
    | string =>
      simp only [textType]
      rw [wp_bind]
      refine wp_step_emitAdv g (by omega) h1 (by simp) (Tok.string (hL (by simp))) fun s1 g1 l1 e1 i1 x1 => ?_
      rw [wp_pure]
      exact Or.inl ⟨rfl, g1, by omega⟩

theorem textStep_spec {k : Kind} {level : Int} (ok : Ok n again) (g : Good rules env s) (hn : s.rem.length ≤ n) :
    wp (textStep again k level) (fun r s' => match r with
      | .inl level' => Good rules env s' ∧ s.idx < s'.idx ∧ (k ≠ .block → level' = level)
      | .inr _ => s' = s ∧ (0 ≤ level → NoMarkup s.rem ∧ (textScan k level s.rem).1 = 0)) env s := by
  unfold textStep
  split
  · rename_i hl
    rw [wp_bind, wp_hassert]
    refine ⟨by simpa using hl, ?_⟩
    rw [wp_bind]
    refine wp_mono (expectMarkup_spec ok g hn) ?_
    rintro _ s1 (⟨rfl, g1, h1⟩ | ⟨rfl, rfl, h⟩)
    · simp only [if_true]
      rw [wp_pure]
      exact ⟨g1, h1, fun _ => rfl⟩
    · simp only [Bool.false_eq_true, if_false]
      rw [wp_bind, wp_rem, wp_bind]
      refine wp_mono (emitText_spec (k := k) (level := level) g) ?_
      rintro _ s2 (⟨rfl, g2, h2⟩ | ⟨rfl, rfl, h2⟩)
      · simp only [if_true]
        rw [wp_pure]
        exact ⟨g2, h2, (textScan_facts k level s1.rem).2.2.2.2⟩
      · simp only [Bool.false_eq_true, if_false]
        rw [wp_pure]
        exact ⟨rfl, fun _ => ⟨h, h2⟩⟩
  · rename_i hl
    rw [wp_pure]
    exact ⟨rfl, fun h => absurd h hl⟩

theorem consumeText_spec {k : Kind} (ok : Ok n again) (g : Good rules env s) (hn : s.rem.length ≤ n) :
    wp (consumeText again k) (fun _ s' => Moved rules env s s' ∧ (k ≠ .block →
      NoMarkup s'.rem ∧ (textScan k 0 s'.rem).1 = 0)) env s := by
  unfold consumeText
  rw [wp_bind, wp_rem]
  refine wp_loop_moved (R := rules) (fun level s1 => s.idx ≤ s1.idx ∧ (k ≠ .block → level = 0)) ?_ g
    ⟨by omega, fun _ => rfl⟩ (by omega)
  rintro level s1 g1 l1 i1 ⟨_, hl⟩
  have := g.len
  refine wp_mono (textStep_spec ok g1 (by omega)) ?_
  rintro (_ | _) s2 h
  · exact ⟨h.1, h.2.1, by have := h.2.1; omega, fun hk => by rw [h.2.2 hk, hl hk]⟩
  · obtain ⟨rfl, h⟩ := h
    refine ⟨⟨g1, i1⟩, fun hk => ?_⟩
    rw [hl hk] at h
    exact h (by omega)

/-! ## Names with quotation marks -/

theorem no_directive (h : ∀ c, s.rem[0]? = some c!"\\" → s.rem[1]? = some c → ¬ Start c) :
    wp (expectDirective again) (fun b s' => b = false ∧ s' = s) env s := by
  unfold expectDirective
  rw [wp_bind, wp_rem, if_neg, wp_pure]
  · exact ⟨rfl, rfl⟩
  · simp only [Bool.and_eq_true, decide_eq_true_eq]
    rintro ⟨h0, h1⟩
    obtain ⟨t, e⟩ := startsWith_iff.1 h0
    obtain ⟨⟨c, h2, h3⟩, _⟩ := identifier_ident h1
    exact h c (by simp [e]) (by simpa using h2) h3

theorem no_splice (h : startsWith s.rem b!"\\(" = false) :
    wp (expectSplice again) (fun b s' => b = false ∧ s' = s) env s := by
  unfold expectSplice emitIfStarts
  simp only [wp_bind, wp_rem]
  rw [if_neg (by simp [h]), wp_pure]
  simp only [Bool.false_eq_true, if_false]
  rw [wp_pure]
  exact ⟨rfl, rfl⟩

theorem no_lineSplice (h : startsWith s.rem b!"\\ " = false) :
    wp (expectLineSplice again) (fun b s' => b = false ∧ s' = s) env s := by
  unfold expectLineSplice
  rw [wp_bind, wp_rem, if_neg (by simp [h]), wp_pure]
  exact ⟨rfl, rfl⟩

theorem escape_first {s : Bytes} (h : s[0]? ≠ some c!"\\") : (matchEscape s).length = 0 := by
  rcases matchEscape_facts s with h1 | h1
  · exact h1.1
  · exact absurd h1.1 h

/-- Markup in the name of a member. -/
theorem name_markup {m : Nat} (g : Good rules env s) (hN : NameEnds s.rem m) :
    wp (expectMarkup again) (fun b s' =>
      (b = true ∧ ∃ k, 0 < k ∧ k < m ∧ Consumes rules env s k s' ∧ NameEnds s'.rem (m - k)) ∨
      (b = false ∧ s' = s ∧ s.rem[0]? ≠ some c!"\\")) env s := by
  unfold expectMarkup
  have hchar : s.rem[0]? ≠ some c!"\\" → wp (HM.or expectEscape (HM.or (expectDirective again)
      (HM.or (expectSplice again) (HM.or (expectLineSplice again) (HM.or expectLineComment expectBlockComment)))))
      (fun b s' => (b = true ∧ ∃ k, 0 < k ∧ k < m ∧ Consumes rules env s k s' ∧ NameEnds s'.rem (m - k)) ∨
      (b = false ∧ s' = s ∧ s.rem[0]? ≠ some c!"\\")) env s := by
    intro h0
    have hw : ∀ a, startsWith s.rem [c!"\\", a] = false := by
      intro a
      match hr : s.rem with
      | [] => rfl
      | c :: t =>
        rw [hr] at h0
        simp [startsWith_cons_cons] at h0 ⊢
        grind
    refine wp_step_or (wp_mono (escape_wp g) ?_)
    rintro _ s1 (⟨rfl, h1, _⟩ | ⟨rfl, rfl, _⟩)
    · exact absurd (escape_first h0) h1
    simp only [Bool.false_eq_true, if_false]
    refine wp_step_or (wp_mono (no_directive (fun c h => absurd h h0)) ?_)
    rintro _ s1 ⟨rfl, rfl⟩
    simp only [Bool.false_eq_true, if_false]
    refine wp_step_or (wp_mono (no_splice (hw _)) ?_)
    rintro _ s1 ⟨rfl, rfl⟩
    simp only [Bool.false_eq_true, if_false]
    refine wp_step_or (wp_mono (no_lineSplice (hw _)) ?_)
    rintro _ s1 ⟨rfl, rfl⟩
    simp only [Bool.false_eq_true, if_false]
    refine wp_step_or (wp_mono (lineComment_wp g) ?_)
    rintro _ s2 (⟨rfl, h1, _⟩ | ⟨rfl, rfl, _⟩)
    · have := (lineComment_facts h1).1
      have := congrArg (·[0]?) this
      simp at this
      exact absurd this h0
    simp only [Bool.false_eq_true, if_false]
    refine wp_mono (blockComment_wp g) ?_
    rintro _ s3 (⟨rfl, h1, _⟩ | ⟨rfl, rfl, _⟩)
    · have := (blockComment_facts h1).1
      have := congrArg (·[0]?) this
      simp at this
      exact absurd this h0
    exact Or.inr ⟨rfl, rfl, h0⟩
  have hcomment : ∀ {a : UInt8}, (matchEscape s.rem).length = 0 → s.rem.take 2 = [c!"\\", a] → a ∈ b!":*" →
      ∀ {Q : Bool → HS Unit → Prop}, wp (HM.or expectLineComment expectBlockComment) Q env s →
        wp (HM.or expectEscape (HM.or (expectDirective again) (HM.or (expectSplice again)
          (HM.or (expectLineSplice again) (HM.or expectLineComment expectBlockComment))))) Q env s := by
    intro a h0 h1 ha Q hQ
    obtain ⟨t, e⟩ : ∃ t, s.rem = c!"\\" :: a :: t := by
      match hr : s.rem with
      | [] => simp [hr] at h1
      | [a] => simp [hr] at h1
      | a :: b :: t =>
        simp [hr] at h1
        exact ⟨t, by rw [h1.1, h1.2]⟩
    have hw : ∀ b, b ∈ b!"( " → startsWith s.rem [c!"\\", b] = false := by
      intro b hb
      rw [e]
      simp [startsWith_cons_cons]
      simp at ha hb
      grind
    refine wp_step_or (wp_mono (escape_wp g) ?_)
    rintro _ s1 (⟨rfl, h1, _⟩ | ⟨rfl, rfl, _⟩)
    · exact absurd h0 h1
    simp only [Bool.false_eq_true, if_false]
    refine wp_step_or (wp_mono (no_directive ?_) ?_)
    · intro c _ hc
      simp [e] at hc
      subst hc
      simp at ha
      rcases ha with rfl | rfl <;> simp [Start, Letter]
    rintro _ s1 ⟨rfl, rfl⟩
    simp only [Bool.false_eq_true, if_false]
    refine wp_step_or (wp_mono (no_splice (hw _ (by simp))) ?_)
    rintro _ s1 ⟨rfl, rfl⟩
    simp only [Bool.false_eq_true, if_false]
    refine wp_step_or (wp_mono (no_lineSplice (hw _ (by simp))) ?_)
    rintro _ s1 ⟨rfl, rfl⟩
    simpa only [Bool.false_eq_true, if_false] using hQ
  cases hN with
  | quote h => exact hchar (by simp [h])
  | @skip _ k n h r =>
    have hpos := r.pos
    cases h with
    | char h h1 h2 => exact hchar (by simp [h, h2])
    | escape h h1 =>
      refine wp_step_or (wp_mono (escape_wp g) ?_)
      rintro _ s1 (⟨rfl, h1, h2⟩ | ⟨rfl, _, h2⟩)
      · refine Or.inl ⟨rfl, ?_⟩
        rcases h2 with h2 | ⟨h2, c, t, e, hc, h3⟩
        · refine ⟨_, by omega, by omega, h2, ?_⟩
          rw [h2.2.1, Nat.add_sub_cancel_left]
          exact r
        · have hne : ∀ c : UInt8, ¬ InLine c → c ≠ c!"\"" ∧ c ≠ c!"\\" := by
            intro c hc
            constructor <;> rintro rfl <;> exact hc (by simp [InLine])
          refine ⟨1, by omega, by omega, h2, ?_⟩
          rcases h3 with h3 | ⟨h3, d, u, rfl, hd⟩
          · rw [h3, e] at r
            rw [h2.2.1, h3, e, show 2 + n - 1 = 1 + n by omega]
            exact NameEnds.cons (by simpa using r) (hne c hc).1 (hne c hc).2
          · rw [h3, e] at r
            rw [h2.2.1, h3, e, show 3 + n - 1 = 1 + (1 + n) by omega]
            exact NameEnds.cons (NameEnds.cons (by simpa using r) (hne d hd).1 (hne d hd).2) (hne c hc).1 (hne c hc).2
      · exact absurd h2 h1
    | line h h1 h2 =>
      refine hcomment h1 (lineComment_facts h2).1 (by simp) ?_
      refine wp_step_or (wp_mono (lineComment_wp g) ?_)
      rintro _ s1 (⟨rfl, h3, h4⟩ | ⟨rfl, _, h4⟩)
      · refine Or.inl ⟨rfl, _, by omega, by omega, h4, ?_⟩
        rw [h4.2.1, Nat.add_sub_cancel_left]
        exact r
      · exact absurd h4 h2
    | block h h1 h2 h3 =>
      refine hcomment h1 (blockComment_facts h3).1 (by simp) ?_
      refine wp_step_or (wp_mono (lineComment_wp g) ?_)
      rintro _ s1 (⟨rfl, h4, _⟩ | ⟨rfl, rfl, h4⟩)
      · exact absurd h2 h4
      simp only [Bool.false_eq_true, if_false]
      refine wp_mono (blockComment_wp g) ?_
      rintro _ s2 (⟨rfl, h4, h5⟩ | ⟨rfl, _, h5⟩)
      · refine Or.inl ⟨rfl, _, by omega, by omega, h5, ?_⟩
        rw [h5.2.1, Nat.add_sub_cancel_left]
        exact r
      · exact absurd h5 h3

theorem name_step {m : Nat} (g : Good rules env s) (hN : NameEnds s.rem m) :
    wp (textStep again .memberName 0) (fun r s' => match r with
      | .inl l => l = 0 ∧ ∃ k, 0 < k ∧ k < m ∧ Consumes rules env s k s' ∧ NameEnds s'.rem (m - k)
      | .inr _ => s' = s ∧ m = 1) env s := by
  unfold textStep
  rw [if_pos (by omega), wp_bind, wp_hassert]
  refine ⟨by simp, ?_⟩
  rw [wp_bind]
  refine wp_mono (name_markup g hN) ?_
  rintro _ s1 (⟨rfl, h1⟩ | ⟨rfl, rfl, h0⟩)
  · simp only [if_true]
    rw [wp_pure]
    exact ⟨rfl, h1⟩
  · simp only [Bool.false_eq_true, if_false]
    rw [wp_bind, wp_rem]
    obtain ⟨h1, h2, h3, h4, h5⟩ := textScan_facts .memberName 0 s1.rem
    have h4 := h4 (by simp)
    have h5 := h5 (by simp)
    obtain ⟨h6, h7⟩ := hN.plain h1 fun c hc => ⟨h4 c hc, h2 c hc⟩
    have hL : Longest (fun c => c ≠ c!"\\" ∧ c ≠ c!"\"") s1.rem (textScan .memberName 0 s1.rem).1 := by
      refine ⟨fun c hc => ⟨h2 c hc, h4 c hc⟩, fun c hc => ?_⟩
      rcases h3 with h3 | h3 | ⟨h, h3⟩ | ⟨_, h3⟩
      · rw [h3] at hc
        simp at hc
      · rw [h3] at hc
        simp at hc
        simp [← hc]
      · cases h
      · rw [h3] at hc
        simp at hc
        simp [← hc]
    generalize textScan .memberName 0 s1.rem = r at *
    unfold emitText
    split
    · rename_i hz
      rw [wp_bind, wp_pure]
      simp only [Bool.false_eq_true, if_false]
      rw [wp_pure]
      refine ⟨rfl, ?_⟩
      rw [hz] at h3
      cases hN with
      | quote => rfl
      | skip h r =>
        have hp := r.pos
        cases h with
        | char h a b =>
          rw [h] at h3
          match hr : s1.rem with
          | [] => simp [hr] at h
          | x :: y =>
            simp [hr] at h3
            grind
        | escape h => exact absurd h h0
        | line h => exact absurd h h0
        | block h => exact absurd h h0
    · rename_i hz
      simp only [textType]
      simp only [wp_bind]
      refine wp_step_emitAdv g (by omega) h1 (by simp) (Tok.quotedAttr hL) fun s2 g2 l2 e2 i2 x2 => ?_
      simp only [wp_pure, if_true]
      exact ⟨h5, r.1, by omega, h6, ⟨g2, e2, i2, x2⟩, by rw [e2]; exact h7⟩

theorem name_spec {m : Nat} (g : Good rules env s) (hN : NameEnds s.rem m) :
    wp (consumeText again .memberName) (fun _ s' => Good rules env s' ∧ s'.rem = s.rem.drop (m - 1) ∧
      s'.idx = s.idx + (m - 1)) env s := by
  unfold consumeText
  rw [wp_bind, wp_rem]
  refine wp_loop_moved (R := rules) (fun l s1 => l = 0 ∧ ∃ k, k < m ∧ Consumes rules env s k s1 ∧ NameEnds s1.rem (m - k))
    ?_ g ⟨rfl, 0, hN.pos, ⟨g, by simp, by simp, rfl⟩, by simpa using hN⟩ (by omega)
  rintro _ s1 g1 l1 i1 ⟨rfl, k, hk, c1, hN1⟩
  refine wp_mono (name_step g1 hN1) ?_
  rintro (_ | _) s2 h
  · obtain ⟨rfl, j, hj, hj', c2, hN2⟩ := h
    refine ⟨c2.1, by have := c2.2.2.1; omega, rfl, k + j, by omega, c1.trans c2, ?_⟩
    rw [show m - (k + j) = m - k - j by omega]
    exact hN2
  · obtain ⟨rfl, h⟩ := h
    rw [show m - 1 = k by omega]
    exact ⟨g1, c1.2.1, c1.2.2.1⟩

/-! ## All of it -/

theorem call_ok : ∀ n, Ok n (call n)
  | 0 => ⟨fun _ _ _ _ h => by omega, fun _ _ _ _ h => by omega⟩
  | n + 1 => by
    have ok := call_ok n
    constructor
    · intro c env s g hn
      cases c with
      | group => exact groupRest_spec ok g (by omega)
      | text k => exact wp_mono (consumeText_spec ok g (by omega)) fun _ _ h => h.1
    · intro env s m g hn hN
      exact name_spec g hN

theorem run_spec (g : Good rules env s) :
    wp run (fun b s' => Good rules env s' ∧ b = true ∧ (s'.rem = [] ∨ Gap s'.rem s'.rem.length)) env s := by
  unfold run
  rw [wp_bind, wp_rem, wp_bind]
  unfold call
  refine wp_mono (consumeText_spec (call_ok s.rem.length) g (by omega)) ?_
  rintro _ s1 ⟨m1, h⟩
  obtain ⟨h1, h2⟩ := h (by simp)
  rw [wp_pure]
  refine ⟨m1.good, rfl, ?_⟩
  obtain ⟨_, _, h3, _⟩ := textScan_facts .document 0 s1.rem
  rw [h2] at h3
  rcases h3 with h3 | h3 | ⟨h3, _⟩ | ⟨h3, _⟩
  · exact Or.inl (List.length_eq_zero_iff.1 h3.symm)
  · exact Or.inr (Gap.stopped (h1 h3).1 (h1 h3).2 rfl)
  · cases h3
  · simp at h3

theorem highlight_tiles (debug : Bool) (opts : Opts) (src : Bytes) :
    ∃ es, highlight debug opts src = .ok (true, es) ∧ Tiles rules src src.length (es.map Emit.token) := by
  obtain ⟨b, s', h1, g, rfl, h⟩ := run_spec (env := ⟨debug, opts.seen, src⟩) (s := ⟨src, 0, [], ()⟩) ⟨by simp, by simp, .nil⟩
  refine ⟨s'.out, by simp [highlight, HM.run, HM.runAll, h1], ?_⟩
  have l := g.len
  have r := g.rem
  have t := g.tiles
  simp at l r
  rcases h with h | h
  · rw [h] at l
    simp at l
    rw [← l]
    exact t
  · rw [r] at h l
    have := t.gap (s'.rem.length) (by simp [r]; omega) (show Gap _ _ by simpa [r] using h)
    rw [show s'.idx + s'.rem.length = src.length by rw [r]; exact l] at this
    exact this

/-- Every token of a COWEL document is what its type says, and so is the text without tokens. -/
theorem C50_cowel_tokens (debug : Bool) (opts : Opts) (src : Bytes) :
    ∃ es, highlight debug opts src = .ok (true, es) ∧ Tiles rules src src.length (es.map Emit.token) :=
  highlight_tiles debug opts src

/-- What is highlighted. -/
def tokensOf (src : Bytes) : Except Fault (List Token) :=
  (highlight true {} src).map (fun r => r.2.map Emit.token)

instance : DecidableEq (Except Fault (List Token)) := Html.instDecidableEqExceptFaultListToken

example : tokensOf b!"\\a(x = 1, \"b\\\\c\" = \"s\\n\", ...)\\{{t}\\(f(-0x1F, -infinity) + true)" =
    .ok [⟨0, 2, .markup_tag⟩, ⟨2, 1, .symbol_parens⟩, ⟨3, 1, .markup_attr⟩, ⟨5, 1, .symbol_punc⟩, ⟨7, 1, .number⟩,
      ⟨8, 1, .symbol_punc⟩, ⟨10, 1, .markup_attr_delim⟩, ⟨11, 1, .markup_attr⟩, ⟨12, 2, .string_escape⟩,
      ⟨14, 1, .markup_attr⟩, ⟨15, 1, .markup_attr_delim⟩, ⟨17, 1, .symbol_punc⟩, ⟨19, 1, .string_delim⟩,
      ⟨20, 1, .string⟩, ⟨21, 2, .markup_tag⟩, ⟨23, 1, .string_delim⟩, ⟨24, 1, .symbol_punc⟩, ⟨26, 3, .name_attr⟩,
      ⟨29, 1, .symbol_parens⟩, ⟨30, 2, .string_escape⟩, ⟨35, 2, .string_interpolation_delim⟩, ⟨37, 1, .markup_tag⟩,
      ⟨38, 1, .symbol_parens⟩, ⟨39, 1, .symbol_op⟩, ⟨40, 2, .number_decor⟩, ⟨42, 2, .number⟩, ⟨44, 1, .symbol_punc⟩,
      ⟨46, 1, .value_delim⟩, ⟨47, 8, .value⟩, ⟨55, 1, .symbol_parens⟩, ⟨57, 1, .symbol_op⟩, ⟨59, 4, .bool_⟩,
      ⟨63, 1, .string_interpolation_delim⟩] := by decide +kernel

example : tokensOf b!"\\: c\n\\* d *\\\\x{a{b}\\y}\\+00e9\\\n\\ let g = fun h(x) 1.5e\n" =
    .ok [⟨0, 2, .comment_delim⟩, ⟨2, 2, .comment⟩, ⟨5, 2, .comment_delim⟩, ⟨7, 3, .comment⟩, ⟨10, 2, .comment_delim⟩,
      ⟨12, 2, .markup_tag⟩, ⟨14, 1, .symbol_brace⟩, ⟨19, 2, .markup_tag⟩, ⟨21, 1, .symbol_brace⟩,
      ⟨22, 6, .string_escape⟩, ⟨28, 1, .string_escape⟩, ⟨30, 2, .string_interpolation_delim⟩, ⟨32, 3, .keyword⟩,
      ⟨36, 1, .name_var⟩, ⟨38, 1, .symbol_punc⟩, ⟨40, 3, .keyword⟩, ⟨44, 1, .name_function_decl⟩,
      ⟨45, 1, .symbol_parens⟩, ⟨46, 1, .name_var⟩, ⟨47, 1, .symbol_parens⟩, ⟨49, 4, .error⟩] := by decide +kernel

/-- Text that is not highlighted as it should be.
* A backslash and a space in the last line end the highlighting, so the command `\c` is not found.
* A space at the end of a line with an expression hides the end of the line, so the text `ab` is a variable.
* After an expression, the first character of another identifier is an error, and the rest is an identifier.
* In the same way, a string is not recognised. -/
theorem C50_differences :
    tokensOf b!"a\\ b \\c" = .ok [] ∧
    tokensOf b!"\\ x \nab" = .ok [⟨0, 2, .string_interpolation_delim⟩, ⟨2, 1, .name_var⟩, ⟨5, 2, .name_var⟩] ∧
    tokensOf b!"\\(a bc)" = .ok [⟨0, 2, .string_interpolation_delim⟩, ⟨2, 1, .name_var⟩, ⟨4, 1, .error⟩,
      ⟨5, 1, .name_var⟩, ⟨6, 1, .string_interpolation_delim⟩] ∧
    tokensOf b!"\\(1 \"x\")" = .ok [⟨0, 2, .string_interpolation_delim⟩, ⟨2, 1, .number⟩, ⟨4, 1, .error⟩,
      ⟨5, 1, .name_var⟩, ⟨6, 1, .error⟩, ⟨7, 1, .string_interpolation_delim⟩] := by
  refine ⟨by decide +kernel, by decide +kernel, by decide +kernel, by decide +kernel⟩

/-- `\(×)`: a character is cut. -/
theorem C31_cowel_splits : IsUtf8 [0x5C, 0x28, 0xC3, 0x97, 0x29] ∧
    tokensOf [0x5C, 0x28, 0xC3, 0x97, 0x29] = .ok [⟨0, 2, .string_interpolation_delim⟩, ⟨2, 1, .error⟩,
      ⟨3, 1, .error⟩, ⟨4, 1, .string_interpolation_delim⟩] ∧
    ¬ IsUtf8 (([0x5C, 0x28, 0xC3, 0x97, 0x29].drop 2).take 1) := by
  exact ⟨⟨[0x5C, 0x28, 0xD7, 0x29], by simp [IsScalar], by decide +kernel⟩, by decide +kernel, not_isUtf8_one (by decide)⟩

end Cowel

end Ulight
