import Verif.Hl.Whole
import Verif.Props.Lang.YamlMatch

/-!
# YAML: what every token is (C54)
-/

namespace Ulight

open Spec

namespace Yaml

open Spec.Yaml

variable {env : HEnv} {s : HS St}

/-! ## States -/

/-- The state is consistent with the source. -/
abbrev Ok (env : HEnv) (s : HS St) : Prop := Good (rules env.src) env s

/-- The text before the current position. -/
abbrev pre (env : HEnv) (s : HS St) : Bytes := env.src.take s.idx

/-- `s'` is `n` bytes behind `s`. -/
structure Step (env : HEnv) (s : HS St) (n : Nat) (s' : HS St) : Prop where
  good : Ok env s'
  rem : s'.rem = s.rem.drop n
  idx : s'.idx = s.idx + n
  ext : s'.ext = s.ext
  pre : pre env s' = pre env s ++ s.rem.take n

/-- `s'` is not before `s`. -/
structure Fwd (env : HEnv) (s s' : HS St) : Prop where
  good : Ok env s'
  le : s.idx ≤ s'.idx
  ext : s'.ext = s.ext

theorem Fwd.refl (g : Ok env s) : Fwd env s s := ⟨g, Nat.le_refl _, rfl⟩

theorem Fwd.trans {s1 s2 : HS St} (h : Fwd env s s1) (h' : Fwd env s1 s2) : Fwd env s s2 :=
  ⟨h'.good, Nat.le_trans h.le h'.le, by rw [h'.ext, h.ext]⟩

theorem Step.fwd {n : Nat} {s' : HS St} (h : Step env s n s') : Fwd env s s' :=
  ⟨h.good, by rw [h.idx]; omega, h.ext⟩

theorem Step.trans {m n : Nat} {s1 s2 : HS St} (h : Step env s m s1) (h' : Step env s1 n s2) :
    Step env s (m + n) s2 :=
  ⟨h'.good, by rw [h'.rem, h.rem, List.drop_drop], by rw [h'.idx, h.idx]; omega, by rw [h'.ext, h.ext],
    by rw [h'.pre, h.pre, h.rem, List.take_add, List.append_assoc]⟩

theorem Fwd.rem {s' : HS St} (g : Ok env s) (h : Fwd env s s') : s'.rem = s.rem.drop (s'.idx - s.idx) := by
  have := h.le
  rw [h.good.rem, g.rem, List.drop_drop]
  congr 1
  omega

theorem Fwd.same {s' : HS St} (g : Ok env s) (h : Fwd env s s') (e : s'.idx = s.idx) : s'.rem = s.rem := by
  rw [h.rem g, e]
  simp

theorem Fwd.pre {s' : HS St} (g : Ok env s) (h : Fwd env s s') :
    pre env s' = pre env s ++ s.rem.take (s'.idx - s.idx) := by
  unfold Yaml.pre
  have := h.le
  rw [g.rem, ← List.take_add]
  congr 1
  omega

theorem Fwd.mem {s' : HS St} {c : UInt8} (h : Fwd env s s') (hc : c ∈ Yaml.pre env s) : c ∈ Yaml.pre env s' :=
  (List.take_subset_take_left _ h.le) hc

theorem step_of {n : Nat} {s' : HS St} (g : Ok env s) (g' : Ok env s') (hr : s'.rem = s.rem.drop n)
    (hi : s'.idx = s.idx + n) (he : s'.ext = s.ext) : Step env s n s' := by
  refine ⟨g', hr, hi, he, ?_⟩
  unfold Yaml.pre
  rw [hi, g.rem, List.take_add]

theorem tok_at {n : Nat} {ty : HT} (g : Ok env s) (h : Tok (pre env s) s.rem n ty) :
    (rules env.src).tok s.rem n ty := by
  show Tok (env.src.take (env.src.length - s.rem.length)) s.rem n ty
  have := g.len
  rw [show env.src.length - s.rem.length = s.idx by omega]
  exact h

theorem y_emit {n : Nat} {ty : HT} {Q : Unit → HS St → Prop} (g : Ok env s) (h0 : 0 < n) (hn : n ≤ s.rem.length)
    (ht : ty ≠ .none) (h : Tok (pre env s) s.rem n ty) (k : ∀ s', Step env s n s' → Q () s') :
    wp (HM.emitAdv n ty) Q env s :=
  wp_step_emitAdv g h0 hn ht (tok_at g h) fun s' g' _ e i x => k s' (step_of g g' e i x)

theorem y_emitIf {n : Nat} {ty : HT} {Q : Unit → HS St → Prop} (g : Ok env s) (hn : n ≤ s.rem.length)
    (ht : ty ≠ .none) (h : 0 < n → Tok (pre env s) s.rem n ty) (k : ∀ s', Step env s n s' → Q () s') :
    wp (HM.emitAdvIf n ty) Q env s :=
  wp_step_emitAdvIf g hn ht (fun h0 => tok_at g (h h0)) fun s' g' _ e i x => k s' (step_of g g' e i x)

theorem y_adv {n : Nat} {Q : Unit → HS St → Prop} (g : Ok env s) (hn : n ≤ s.rem.length) (h : Gap s.rem n)
    (k : ∀ s', Step env s n s' → Q () s') : wp (HM.advance n) Q env s :=
  wp_step_advance g hn h fun s' g' _ e i x => k s' (step_of g g' e i x)

/-- A loop that goes on only after it has moved. -/
theorem y_loop {body : Unit → HM St (Unit ⊕ Unit)} {Q : Unit → HS St → Prop} (I : HS St → Prop) {fuel : Nat}
    (step : ∀ s1, Fwd env s s1 → I s1 → wp (body ()) (fun r s' => match r with
      | .inl _ => Fwd env s1 s' ∧ s1.idx < s'.idx ∧ I s'
      | .inr _ => Q () s') env s1) (g : Ok env s) (hi : I s) (hf : s.rem.length < fuel) :
    wp (HM.loop fuel body ()) Q env s := by
  refine wp_loop (fun _ s1 => Fwd env s s1 ∧ I s1) (fun _ s1 => s1.rem.length) ?_ fuel () s ⟨.refl g, hi⟩ hf
  rintro ⟨⟩ s1 ⟨f1, i1⟩
  refine wp_mono (step s1 f1 i1) ?_
  rintro (⟨⟩ | ⟨⟩) s2 h
  · refine ⟨⟨f1.trans h.1, h.2.2⟩, ?_⟩
    have := f1.good.len
    have := h.1.good.len
    have := h.2.1
    omega
  · exact h

/-! ## Whitespace and comments -/

/-- There is something other than whitespace and comments, or nothing. -/
def Clean (r : Bytes) : Prop := ∀ c, r.head? = some c → c ∉ b!" \t\r\n#"

theorem gap_white {r : Bytes} {n : Nat} (p : UInt8 → Bool) (hp : ∀ c, p c = true → White c)
    (h : ∀ c ∈ r.take n, p c = true) : Gap r n := .white fun c hc => hp c (h c hc)

theorem skipLineBreak_spec (g : Ok env s) :
    wp skipLineBreak (fun _ s' => Step env s (matchLineBreak s.rem) s') env s := by
  unfold skipLineBreak
  rw [wp_bind, wp_rem]
  refine y_adv g (matchLineBreak_le _) (.white ?_) fun s' h => h
  intro c hc
  have := matchLineBreak_white _ c hc
  unfold White
  simp at this ⊢
  grind

/-- At the beginning of a line after `s`, or at the end. -/
def AfterBreak (env : HEnv) (s s' : HS St) : Prop :=
  s'.rem = [] ∨ ∃ v e, pre env s' = pre env s ++ v ++ [e] ∧ e ∈ b!"\r\n"

theorem matchLineBreak_last {r : Bytes} (h : matchLineBreak r ≠ 0) :
    ∃ w e, r.take (matchLineBreak r) = w ++ [e] ∧ e ∈ b!"\r\n" := by
  have h1 := matchLineBreak_white r
  have h2 := matchLineBreak_le r
  generalize hx : r.take (matchLineBreak r) = x at *
  have hl : x.length = matchLineBreak r := by
    rw [← hx, List.length_take]
    omega
  have hne : x ≠ [] := by
    intro e
    rw [e] at hl
    simp at hl
    omega
  refine ⟨x.dropLast, x.getLast hne, (List.dropLast_concat_getLast hne).symm, h1 _ (List.getLast_mem hne)⟩

theorem lineLength_break {r : Bytes} : r.drop (lineLength r) = [] ∨ matchLineBreak (r.drop (lineLength r)) ≠ 0 := by
  have h := lineLength_longest r
  cases hd : r.drop (lineLength r) with
  | nil => exact Or.inl rfl
  | cons c t =>
    right
    refine matchLineBreak_ne.2 ⟨c, t, rfl, h.2 c ?_⟩
    rw [← List.head?_drop, hd]
    rfl

theorem skipLine_spec (g : Ok env s) :
    wp skipLine (fun _ s' => Fwd env s s' ∧ (s.rem ≠ [] → s.idx < s'.idx) ∧ AfterBreak env s s') env s := by
  unfold skipLine
  rw [wp_bind, wp_rem, wp_bind]
  refine y_adv g (lineLength_le _) (.rest (lineLength_longest _)) fun s1 h1 => ?_
  refine wp_mono (skipLineBreak_spec h1.good) ?_
  rintro ⟨⟩ s2 h2
  refine ⟨h1.fwd.trans h2.fwd, ?_, ?_⟩
  · intro hne
    rw [h2.idx, h1.idx]
    rcases lineLength_break (r := s.rem) with h | h
    · have : 0 < lineLength s.rem := by
        apply Nat.pos_of_ne_zero
        intro e
        rw [e] at h
        exact hne h
      omega
    · rw [← h1.rem] at h
      omega
  · rcases lineLength_break (r := s.rem) with h | h
    · left
      rw [h2.rem, h1.rem, h]
      simp
    · right
      rw [← h1.rem] at h
      obtain ⟨w, e, hw, he⟩ := matchLineBreak_last h
      exact ⟨s.rem.take (lineLength s.rem) ++ w, e, by rw [h2.pre, h1.pre, hw]; simp, he⟩

theorem isWs_white {c : UInt8} (h : isWs c = true) : White c := by
  unfold isWs at h
  unfold White
  simp at h ⊢
  grind

theorem isWs_blank {c : UInt8} : isWs c = true ↔ Blank c := by
  unfold isWs Blank
  simp

theorem inlineWhitespace_spec (g : Ok env s) :
    wp inlineWhitespace (fun _ s' => Step env s (Ascii.length_if s.rem isWs) s') env s := by
  unfold inlineWhitespace
  rw [wp_bind, wp_rem]
  refine y_adv g (length_if_le _ _ 0 (by omega)).2 (gap_white isWs (fun _ => isWs_white) ?_) fun s' h => h
  exact (length_if_zero_longest _ isWs (isWs · = true) (by simp)).1

theorem skipSpaces_spec (g : Ok env s) :
    wp skipSpaces (fun _ s' => Step env s (currentIndent s.rem) s') env s := by
  unfold skipSpaces
  rw [wp_bind, wp_rem]
  refine y_adv g (currentIndent_le _) (.white ?_) fun s' h => h
  rw [spaces_of _ _ (Nat.le_refl _)]
  intro c hc
  rw [List.mem_replicate] at hc
  rw [hc.2]
  unfold White
  decide

theorem consumeIndent_spec (g : Ok env s) (n : Nat) :
    wp (consumeIndent n) (fun _ s' => Step env s (min n (currentIndent s.rem)) s') env s := by
  unfold consumeIndent
  rw [wp_bind, wp_rem]
  have := currentIndent_le s.rem
  refine y_adv g (by omega) (.white ?_) fun s' h => h
  rw [spaces_of _ _ (by omega)]
  intro c hc
  rw [List.mem_replicate] at hc
  rw [hc.2]
  unfold White
  decide

theorem comment_spec (g : Ok env s) (h : startsWith s.rem b!"#" = true) :
    wp comment (fun _ s' => Fwd env s s' ∧ s.idx < s'.idx) env s := by
  unfold comment
  rw [wp_bind, wp_rem, wp_bind, wp_hassert]
  refine ⟨h, ?_⟩
  rw [wp_bind]
  have hs := startsWith_facts h 1 rfl
  refine y_emit g (by omega) hs.1 (by simp) (.commentMark hs.2) fun s1 h1 => ?_
  rw [wp_bind, wp_rem]
  refine y_emitIf h1.good (lineLength_le _) (by simp) (fun _ => ?_) fun s2 h2 => ?_
  · rw [h1.pre, hs.2]
    exact .commentText (lineLength_longest _)
  · exact ⟨h1.fwd.trans h2.fwd, by rw [h2.idx, h1.idx]; omega⟩

theorem startsWith_of_head {r : Bytes} {c : UInt8} (h : r[0]? = some c) : startsWith r [c] = true := by
  cases r with
  | nil => simp at h
  | cons d t =>
    simp at h
    subst h
    exact startsWith_iff.2 ⟨t, rfl⟩

theorem startsWith_head {r : Bytes} {c : UInt8} {w : Bytes} (h : startsWith r (c :: w) = true) : ∃ t, r = c :: t := by
  obtain ⟨t, rfl⟩ := startsWith_iff.1 h
  exact ⟨w ++ t, rfl⟩

theorem length_if_head {r : Bytes} {p : UInt8 → Bool} (h : ∀ c, r.head? = some c → p c = false) :
    Ascii.length_if r p = 0 := by
  have h1 := length_if_zero_longest r p (p · = true) (by simp)
  cases r with
  | nil =>
    have := (length_if_le ([] : Bytes) p 0 (by omega)).2
    simp at this
    exact this
  | cons c t =>
    apply Classical.byContradiction
    intro hn
    have := h1.1 c (by
      match hk : Ascii.length_if (c :: t) p, hn with
      | k + 1, _ => simp)
    simp [h c rfl] at this

theorem length_if_stop {r : Bytes} {p : UInt8 → Bool} {c : UInt8} (h : (r.drop (Ascii.length_if r p)).head? = some c) :
    p c = false := by
  have h1 := (length_if_zero_longest r p (p · = true) (by simp)).2 c
  rw [List.head?_drop] at h
  simpa using h1 h

theorem whitespaceStep_spec (g : Ok env s) : wp whitespaceStep (fun r s' => match r with
    | .inl _ => Fwd env s s' ∧ s.idx < s'.idx ∧ ¬ Clean s.rem
    | .inr _ => Fwd env s s' ∧ Clean s'.rem ∧ (Clean s.rem → s'.idx = s.idx)) env s := by
  unfold whitespaceStep
  rw [wp_bind, wp_eof]
  split
  · rename_i h
    rw [wp_pure]
    have h : s.rem = [] := by simpa using h
    exact ⟨.refl g, by rw [h]; simp [Clean], fun _ => rfl⟩
  · rename_i h
    rw [wp_bind]
    refine wp_mono (inlineWhitespace_spec g) ?_
    rintro ⟨⟩ s1 h1
    have same : Clean s.rem → s1.idx = s.idx ∧ s1.rem = s.rem := by
      intro hc
      have : Ascii.length_if s.rem isWs = 0 := by
        refine length_if_head ?_
        intro c h
        have := hc c h
        unfold isWs
        simp at this ⊢
        grind
      rw [h1.idx, h1.rem, this]
      simp
    rw [wp_bind, wp_rem]
    split
    · rename_i h2
      rw [wp_bind]
      refine wp_mono (comment_spec h1.good (startsWith_of_head h2)) ?_
      rintro ⟨⟩ s2 ⟨h3, h4⟩
      rw [wp_pure]
      refine ⟨h1.fwd.trans h3, Nat.lt_of_le_of_lt h1.fwd.le h4, ?_⟩
      intro hc
      rw [(same hc).2] at h2
      rw [← List.head?_eq_getElem?] at h2
      have := hc _ h2
      simp at this
    · rename_i h2
      split
      · rename_i h3
        rw [wp_bind]
        refine wp_mono (skipLineBreak_spec h1.good) ?_
        rintro ⟨⟩ s2 h4
        rw [wp_pure]
        refine ⟨h1.fwd.trans h4.fwd, ?_, ?_⟩
        · have := h1.fwd.le
          rw [h4.idx]
          omega
        · intro hc
          rw [(same hc).2] at h3
          obtain ⟨c, t, e, hl⟩ := matchLineBreak_ne.1 h3
          have := hc c (by rw [e]; rfl)
          unfold InLine at hl
          simp at this
          grind
      · rename_i h3
        rw [wp_pure]
        refine ⟨h1.fwd, ?_, fun hc => (same hc).1⟩
        intro c hc hm
        have hw : isWs c = false := length_if_stop (by rw [← h1.rem]; exact hc)
        have hl := matchLineBreak_eq.1 (Classical.byContradiction h3) c hc
        unfold isWs at hw
        unfold InLine at hl
        rw [← List.head?_eq_getElem?, hc] at h2
        simp at hm hw h2
        grind

theorem whitespace_spec (g : Ok env s) :
    wp whitespace (fun _ s' => Fwd env s s' ∧ Clean s'.rem ∧ (Clean s.rem → s'.idx = s.idx)) env s := by
  unfold whitespace
  rw [wp_bind, wp_rem]
  refine y_loop (fun s1 => Clean s.rem → s1.idx = s.idx) ?_ g (fun _ => rfl) (by omega)
  intro s1 f1 i1
  refine wp_mono (whitespaceStep_spec f1.good) ?_
  rintro (⟨⟩ | ⟨⟩) s2 h
  · refine ⟨h.1, h.2.1, ?_⟩
    intro hc
    have := f1.same g (i1 hc)
    rw [this] at h
    exact absurd hc h.2.2
  · refine ⟨f1.trans h.1, h.2.1, ?_⟩
    intro hc
    have := f1.same g (i1 hc)
    rw [h.2.2 (by rw [this]; exact hc), i1 hc]

theorem expectCommentOrBlank_spec (g : Ok env s) (hc : Clean s.rem) (hne : s.rem ≠ []) :
    wp expectCommentOrBlank (fun b s' => b = false ∧ Fwd env s s') env s := by
  unfold expectCommentOrBlank
  rw [wp_bind]
  refine wp_mono (whitespace_spec g) ?_
  rintro ⟨⟩ s1 ⟨h1, h2, h3⟩
  have e := h1.same g (h3 hc)
  rw [wp_bind, wp_rem, e, if_neg hne]
  split
  · rename_i h4
    rw [← List.head?_eq_getElem?] at h4
    have := hc _ h4
    simp at this
  · split
    · rename_i h4
      obtain ⟨c, t, e, hl⟩ := matchLineBreak_ne.1 h4
      have := hc c (by rw [e]; rfl)
      unfold InLine at hl
      simp at this
      grind
    · rw [wp_pure]
      exact ⟨rfl, h1⟩

theorem skipBlank_spec (g : Ok env s) : wp skipBlank (fun _ s' => Fwd env s s' ∧
    (s'.rem = [] ∨ (matchLineBreak s'.rem = 0 ∧ s'.rem[currentIndent s'.rem]? ≠ some c!"#"))) env s := by
  unfold skipBlank
  rw [wp_bind, wp_rem]
  refine y_loop (fun _ => True) ?_ g trivial (by omega)
  intro s1 f1 _
  unfold blankStep
  rw [wp_bind, wp_rem]
  split
  · rename_i h
    rw [wp_pure]
    exact ⟨f1, Or.inl h⟩
  · split
    · rename_i h
      rw [wp_bind]
      refine wp_mono (skipLineBreak_spec f1.good) ?_
      rintro ⟨⟩ s2 h2
      rw [wp_pure]
      exact ⟨h2.fwd, by rw [h2.idx]; omega, trivial⟩
    · split
      · rename_i h
        rw [wp_bind]
        refine wp_mono (consumeIndent_spec f1.good _) ?_
        rintro ⟨⟩ s2 h2
        rw [Nat.min_self] at h2
        rw [wp_bind]
        have : startsWith s2.rem b!"#" = true := by
          refine startsWith_of_head ?_
          rw [h2.rem]
          simpa using h
        refine wp_mono (comment_spec h2.good this) ?_
        rintro ⟨⟩ s3 ⟨h3, h4⟩
        rw [wp_bind]
        refine wp_mono (skipLineBreak_spec h3.good) ?_
        rintro ⟨⟩ s4 h5
        rw [wp_pure]
        refine ⟨h2.fwd.trans (h3.trans h5.fwd), ?_, trivial⟩
        have := h2.fwd.le
        have := h5.fwd.le
        omega
      · rename_i h1 h2
        rw [wp_pure]
        exact ⟨f1, Or.inr ⟨by omega, h2⟩⟩

/-! ## Node properties -/

theorem emitEach_spec {p : UInt8 → Bool} {ty : HT} (g : Ok env s) (ht : ty ≠ .none)
    (hT : ∀ w c t, s.rem = w ++ c :: t → (∀ d ∈ w, p d = true) → p c = true →
      Tok (pre env s ++ w) (c :: t) 1 ty) :
    wp (emitEach p ty) (fun _ s' => ∃ n, Step env s n s' ∧ ∀ d ∈ s.rem.take n, p d = true) env s := by
  unfold emitEach
  rw [wp_bind, wp_rem]
  refine y_loop (fun s1 => ∃ n, Step env s n s1 ∧ ∀ d ∈ s.rem.take n, p d = true) ?_ g
    ⟨0, step_of g g (by simp) (by simp) rfl, by simp⟩ (by omega)
  rintro s1 f1 ⟨n, h1, h2⟩
  rw [wp_bind, wp_rem]
  split
  · rename_i h
    cases hr : s1.rem with
    | nil => rw [hr] at h; simp at h
    | cons c t =>
      rw [hr] at h
      simp at h
      have e : s.rem = s.rem.take n ++ c :: t := by
        rw [← hr, h1.rem, List.take_append_drop]
      rw [wp_bind]
      refine y_emit h1.good (by omega) (by rw [hr]; simp) ht ?_ fun s2 h3 => ?_
      · rw [hr, h1.pre]
        exact hT _ c t e h2 h
      · rw [wp_pure]
        refine ⟨h3.fwd, by rw [h3.idx]; omega, n + 1, h1.trans h3, ?_⟩
        intro d hd
        rw [List.take_add, ← h1.rem, hr] at hd
        simp at hd
        rcases hd with hd | rfl
        · exact h2 d hd
        · exact h
  · rw [wp_pure]
    exact ⟨n, h1, h2⟩

theorem notWordEnd_iff {c : UInt8} : (!isWordEnd c) = true ↔ ¬ WordEnd c := by
  unfold isWordEnd WordEnd
  simp

theorem suffix_spec {u : Bytes} (g : Ok env s) (h : pre env s = u ++ b!"!") :
    wp (emitEach (fun c => !isWordEnd c) .name_attr) (fun _ s' => Fwd env s s') env s := by
  refine wp_mono (emitEach_spec g (by simp) ?_) ?_
  · intro w c t _ hw hc
    refine .suffix ⟨u, w, by rw [h], fun d hd => notWordEnd_iff.1 (hw d hd)⟩ rfl (notWordEnd_iff.1 hc)
  · rintro ⟨⟩ s' ⟨n, h1, _⟩
    exact h1.fwd

theorem isWordChar_iff {c : UInt8} : isWordChar c = true ↔ HandleChar c := by
  unfold isWordChar HandleChar Letter DecDigit
  simp only [isAlnum, isAlpha, isUpper, isLower, isDigit, Bool.or_eq_true, Bool.and_eq_true, decide_eq_true_eq,
    UInt8.le_iff_toNat_le, ← UInt8.toNat_inj]
  simp
  omega

theorem tag_spec (g : Ok env s) (h : startsWith s.rem b!"!" = true) :
    wp tag (fun _ s' => Fwd env s s' ∧ s.idx < s'.idx) env s := by
  unfold tag
  rw [wp_bind, wp_rem, wp_bind, wp_hassert]
  refine ⟨h, ?_⟩
  split
  · rename_i h1
    have hs := startsWith_facts h1 2 rfl
    rw [wp_bind]
    refine y_emit g (by omega) hs.1 (by simp) (.tagMark (by rw [hs.2]; simp)) fun s1 h2 => ?_
    rw [wp_bind]
    have hp : ∀ c : UInt8, (!(b!">\r\n").contains c) = true ↔ c ∉ b!">\r\n" := by
      intro c
      simp
    refine wp_mono (emitEach_spec h2.good (by simp) ?_) ?_
    · intro w c t _ hw hc
      refine .verbatim ⟨pre env s, w, by rw [h2.pre, hs.2], fun d hd => (hp d).1 (hw d hd)⟩ rfl ((hp c).1 hc)
    · rintro ⟨⟩ s2 ⟨n, h3, h4⟩
      rw [wp_bind, wp_rem]
      have lt : s.idx < s2.idx := by rw [h3.idx, h2.idx]; omega
      split
      · rename_i h5
        have hs' := startsWith_facts h5 1 rfl
        refine y_emit h3.good (by omega) hs'.1 (by simp) (.tagEnd ?_ hs'.2) fun s3 h6 => ?_
        · exact ⟨pre env s, s1.rem.take n, by rw [h3.pre, h2.pre, hs.2], fun d hd => (hp d).1 (h4 d hd)⟩
        · exact ⟨h2.fwd.trans (h3.fwd.trans h6.fwd), by rw [h6.idx]; omega⟩
      · rw [wp_pure]
        exact ⟨h2.fwd.trans h3.fwd, lt⟩
  · split
    · rename_i h1
      have hs := startsWith_facts h1 2 rfl
      rw [wp_bind]
      refine y_emit g (by omega) hs.1 (by simp) (.tagMark (by rw [hs.2]; simp)) fun s1 h2 => ?_
      refine wp_mono (suffix_spec (u := pre env s ++ b!"!") h2.good (by rw [h2.pre, hs.2]; simp)) ?_
      rintro ⟨⟩ s2 h3
      have := h3.le
      have := h2.idx
      exact ⟨h2.fwd.trans h3, by omega⟩
    · have hs := startsWith_facts h 1 rfl
      rw [wp_bind]
      refine y_emit g (by omega) hs.1 (by simp) (.tagMark (by rw [hs.2]; simp)) fun s1 h2 => ?_
      rw [wp_bind, wp_rem]
      have hl := length_if_zero_longest s1.rem isWordChar HandleChar (fun c => isWordChar_iff)
      have hle := (length_if_le s1.rem isWordChar 0 (by omega)).2
      dsimp only
      split
      · rename_i h3
        simp only [Bool.and_eq_true, decide_eq_true_eq] at h3
        rw [wp_bind]
        refine y_emit h2.good h3.1 hle (by simp) ?_ fun s2 h4 => ?_
        · rw [h2.pre, hs.2]
          exact .handle hl h3.2
        have hs' : startsWith s2.rem b!"!" = true := by
          refine startsWith_of_head ?_
          rw [h4.rem]
          simpa using h3.2
        have hs' := startsWith_facts hs' 1 rfl
        rw [wp_bind]
        refine y_emit h4.good (by omega) hs'.1 (by simp) (.tagMark (by rw [hs'.2]; simp)) fun s3 h5 => ?_
        refine wp_mono (suffix_spec h5.good (by rw [h5.pre, hs'.2])) ?_
        rintro ⟨⟩ s4 h6
        have := h6.le
        have := h5.idx
        have := h4.idx
        have := h2.idx
        exact ⟨h2.fwd.trans (h4.fwd.trans (h5.fwd.trans h6)), by omega⟩
      · refine wp_mono (suffix_spec h2.good (by rw [h2.pre, hs.2])) ?_
        rintro ⟨⟩ s2 h3
        have := h3.le
        have := h2.idx
        exact ⟨h2.fwd.trans h3, by omega⟩

theorem reference_spec (g : Ok env s) {c : UInt8} {t : Bytes} (hr : s.rem = c :: t) (hc : c ∈ b!"&*") :
    wp reference (fun _ s' => Fwd env s s' ∧ s.idx < s'.idx) env s := by
  unfold reference
  rw [wp_bind, wp_rem]
  dsimp only
  rw [wp_bind]
  refine y_emit g (by omega) (by rw [hr]; simp) (by simp) (.reference ?_) fun s1 h1 => ?_
  · rw [hr]
    simpa using hc
  have e : nameLength s.rem = Ascii.length_if_not s1.rem isWordEnd := by
    rw [h1.rem]
    rfl
  rw [e]
  refine y_emitIf h1.good (length_if_not_le _ _ 0 (by omega)).2 (by simp) (fun _ => ?_) fun s2 h2 => ?_
  · rw [h1.pre, hr]
    refine .name hc (length_if_not_zero_longest _ _ _ ?_)
    intro c
    unfold isWordEnd WordEnd
    simp
  · exact ⟨h1.fwd.trans h2.fwd, by rw [h2.idx, h1.idx]; omega⟩

/-- Neither a tag nor an anchor is at the beginning. -/
def Bare (r : Bytes) : Prop := ∀ c, r.head? = some c → c ∉ b!"!&"

theorem propertyTag_spec (g : Ok env s) : wp propertyTag (fun b s' => Fwd env s s' ∧
    (b = true → s.idx < s'.idx) ∧ (b = false → s'.idx = s.idx ∧ s.rem.head? ≠ some c!"!")) env s := by
  unfold propertyTag
  rw [wp_bind, wp_rem]
  split
  · rename_i h
    rw [wp_bind]
    refine wp_mono (tag_spec g h) ?_
    rintro ⟨⟩ s1 ⟨h1, h2⟩
    rw [wp_bind]
    refine wp_mono (inlineWhitespace_spec h1.good) ?_
    rintro ⟨⟩ s2 h3
    rw [wp_pure]
    have := h3.idx
    exact ⟨h1.trans h3.fwd, fun _ => by omega, by simp⟩
  · rename_i h
    rw [wp_pure]
    refine ⟨.refl g, by simp, fun _ => ⟨rfl, ?_⟩⟩
    intro e
    rw [List.head?_eq_getElem?] at e
    exact h (startsWith_of_head e)

theorem propertyAnchor_spec (g : Ok env s) : wp propertyAnchor (fun b s' => Fwd env s s' ∧
    (b = true → s.idx < s'.idx) ∧ (b = false → s'.idx = s.idx ∧ s.rem.head? ≠ some c!"&")) env s := by
  unfold propertyAnchor
  rw [wp_bind, wp_rem]
  split
  · rename_i h
    rw [wp_bind]
    obtain ⟨t, ht⟩ := startsWith_head h
    refine wp_mono (reference_spec g ht (by simp)) ?_
    rintro ⟨⟩ s1 ⟨h1, h2⟩
    rw [wp_bind]
    refine wp_mono (inlineWhitespace_spec h1.good) ?_
    rintro ⟨⟩ s2 h3
    rw [wp_pure]
    have := h3.idx
    exact ⟨h1.trans h3.fwd, fun _ => by omega, by simp⟩
  · rename_i h
    rw [wp_pure]
    refine ⟨.refl g, by simp, fun _ => ⟨rfl, ?_⟩⟩
    intro e
    rw [List.head?_eq_getElem?] at e
    exact h (startsWith_of_head e)

theorem nodeProperties_spec (g : Ok env s) :
    wp nodeProperties (fun _ s' => Fwd env s s') env s := by
  unfold nodeProperties
  rw [wp_bind, wp_rem]
  refine y_loop (fun _ => True) ?_ g trivial (by omega)
  intro s1 f1 _
  rw [wp_bind]
  refine wp_mono (propertyTag_spec f1.good) ?_
  intro a s2 ⟨h1, h2, h3⟩
  rw [wp_bind]
  refine wp_mono (propertyAnchor_spec h1.good) ?_
  intro b s3 ⟨h4, h5, h6⟩
  have l1 := h1.le
  have l2 := h4.le
  split
  · rename_i hab
    rw [wp_pure]
    refine ⟨h1.trans h4, ?_, trivial⟩
    simp at hab
    rcases hab with hab | hab
    · have := h2 hab
      omega
    · have := h5 hab
      omega
  · rw [wp_pure]
    exact f1.trans (h1.trans h4)

/-! ## Scalars -/

theorem singleText_append {v w : Bytes} (h : SingleText v) (h' : SingleText w) : SingleText (v ++ w) := by
  induction h with
  | nil => exact h'
  | char hc _ ih => exact .char hc ih
  | quote _ ih => exact .quote ih

theorem singleText_plain {v : Bytes} (h : ∀ c ∈ v, c ≠ c!"'") : SingleText v := by
  induction v with
  | nil => exact .nil
  | cons c v ih => exact .char (h c (by simp)) (ih fun d hd => h d (by simp [hd]))

theorem doublePart_plain {v w : Bytes} (hv : DoublePart v) (h : ∀ c ∈ w, c ≠ c!"\"") : DoublePart (v ++ w) := by
  induction w generalizing v with
  | nil => simpa using hv
  | cons c w ih =>
    have := ih (.char hv (h c (by simp))) fun d hd => h d (by simp [hd])
    simpa using this

theorem inDouble_plain {p w : Bytes} (i : InDouble p) (h : ∀ c ∈ w, c ≠ c!"\"") : InDouble (p ++ w) := by
  obtain ⟨u, v, rfl, hv⟩ := i
  exact ⟨u, v ++ w, by simp, doublePart_plain hv h⟩

theorem inSingle_append {p w : Bytes} (i : InSingle p) (h : SingleText w) : InSingle (p ++ w) := by
  obtain ⟨u, v, rfl, hv⟩ := i
  exact ⟨u, v ++ w, by simp, singleText_append hv h⟩

/-- Going to the next line of a quoted scalar. -/
theorem nextLine_spec (g : Ok env s) : wp (do skipLineBreak; skipSpaces) (fun _ s' => ∃ n, Step env s n s' ∧
    matchLineBreak s.rem ≤ n ∧ ∀ c ∈ s.rem.take n, c ∈ b!" \r\n") env s := by
  rw [wp_bind]
  refine wp_mono (skipLineBreak_spec g) ?_
  rintro ⟨⟩ s1 h1
  refine wp_mono (skipSpaces_spec h1.good) ?_
  rintro ⟨⟩ s2 h2
  refine ⟨_, h1.trans h2, by omega, ?_⟩
  intro c hc
  rw [List.take_add, ← h1.rem, spaces_of _ _ (Nat.le_refl _)] at hc
  simp at hc
  rcases hc with hc | hc
  · have := matchLineBreak_white _ c hc
    simp at this ⊢
    grind
  · simp [hc.2]

theorem doubleStep_spec (g : Ok env s) (i : InDouble (pre env s)) : wp doubleStep (fun r s' => match r with
    | .inl _ => Fwd env s s' ∧ s.idx < s'.idx ∧ InDouble (pre env s')
    | .inr _ => Fwd env s s') env s := by
  unfold doubleStep
  rw [wp_bind, wp_rem, wp_bind]
  have hp : ∀ c : UInt8, (!(b!"\"\\\r\n").contains c) = true ↔ c ∉ b!"\"\\\r\n" := by
    intro c
    simp
  have hl := length_if_zero_longest s.rem (fun c => !(b!"\"\\\r\n").contains c) _ hp
  refine y_emitIf g (length_if_le _ _ 0 (by omega)).2 (by simp) (fun _ => .doubleText i hl) fun s1 h1 => ?_
  have i1 : InDouble (pre env s1) := by
    rw [h1.pre]
    refine inDouble_plain i ?_
    intro c hc
    have := hl.1 c hc
    simp at this
    exact this.1
  rw [wp_bind, wp_rem]
  split
  · rw [wp_pure]
    exact h1.fwd
  · rename_i c hc
    have hr : ∃ t, s1.rem = c :: t := by
      cases hr : s1.rem with
      | nil => rw [hr] at hc; simp at hc
      | cons d t =>
        rw [hr] at hc
        simp at hc
        exact ⟨t, by rw [hc]⟩
    obtain ⟨t, hr⟩ := hr
    split
    · rename_i h2
      rw [wp_bind]
      refine y_emit h1.good (by omega) (by rw [hr]; simp) (by simp) (.quote (by rw [hr, h2]; simp)) fun s2 h3 => ?_
      rw [wp_pure]
      exact h1.fwd.trans h3.fwd
    · split
      · rename_i h2 h3
        have h4 : matchLineBreak s1.rem ≠ 0 := by
          refine matchLineBreak_ne.2 ⟨c, t, hr, ?_⟩
          unfold InLine
          simp at h3
          grind
        have := nextLine_spec h1.good
        rw [wp_bind] at this
        rw [wp_bind]
        refine wp_mono this ?_
        rintro ⟨⟩ s2 h5
        rw [wp_bind]
        refine wp_mono h5 ?_
        rintro ⟨⟩ s3 ⟨n, h6, h7, h8⟩
        rw [wp_pure]
        refine ⟨h1.fwd.trans h6.fwd, ?_, ?_⟩
        · have := h1.fwd.le
          rw [h6.idx]
          omega
        · rw [h6.pre]
          refine inDouble_plain i1 ?_
          intro c hc
          have := h8 c hc
          simp at this
          grind
      · rename_i h2 h3
        have hb : s1.rem[0]? = some c!"\\" := by
          have : ∀ d, (s.rem.drop (Ascii.length_if s.rem fun c => !(b!"\"\\\r\n").contains c)).head? = some d → _ :=
            fun d hd => length_if_stop hd
          have := this c (by rw [← h1.rem, hr]; rfl)
          rw [hc]
          simp at this h3
          grind
        obtain ⟨f, pos⟩ := matchEscape_facts hb
        rw [wp_bind]
        refine y_emit h1.good pos f.le (by split <;> simp) ?_ fun s2 h4 => ?_
        · split
          · rename_i he
            exact .badEscape i1 (f.bad he) (matchEscape_bad hb he)
          · rename_i he
            exact .escape i1 (f.good (by simpa using he))
        · rw [wp_pure]
          refine ⟨h1.fwd.trans h4.fwd, ?_, ?_⟩
          · have := h1.fwd.le
            rw [h4.idx]
            omega
          · rw [h4.pre]
            obtain ⟨u, v, e, hv⟩ := i1
            rw [e]
            refine ⟨u, _, by rw [List.append_assoc], ?_⟩
            cases he : (matchEscape s1.rem).erroneous with
            | true => exact .badEscape hv (f.bad he) (matchEscape_bad hb he)
            | false => exact .escape hv (f.good he)

theorem doubleQuoted_spec (g : Ok env s) (h : startsWith s.rem b!"\"" = true) (isKey : Bool) :
    wp (doubleQuoted isKey) (fun _ s' => Fwd env s s' ∧ s.idx < s'.idx) env s := by
  unfold doubleQuoted
  rw [wp_bind, wp_rem, wp_bind, wp_hassert]
  refine ⟨h, ?_⟩
  obtain ⟨t, ht⟩ := startsWith_head h
  split
  · have hk := doubleKey_quoted t
    refine y_emit g (by omega) (by rw [ht]; simpa using hk.2) (by simp) (.quotedKey (by rw [ht]; simpa using hk.1))
      fun s1 h1 => ?_
    exact ⟨h1.fwd, by rw [h1.idx]; omega⟩
  · rw [wp_bind]
    refine y_emit g (by omega) (by rw [ht]; simp) (by simp) (.quote (by rw [ht]; simp)) fun s1 h1 => ?_
    rw [wp_bind, wp_rem]
    have lt : s.idx < s1.idx := by rw [h1.idx]; omega
    refine y_loop (fun s2 => InDouble (pre env s2)) ?_ h1.good ?_ (by omega)
    · intro s2 f2 i2
      refine wp_mono (doubleStep_spec f2.good i2) ?_
      rintro (⟨⟩ | ⟨⟩) s3 h3
      · exact h3
      · have := f2.le
        have := h3.le
        exact ⟨h1.fwd.trans (f2.trans h3), by omega⟩
    · rw [h1.pre, ht]
      exact ⟨pre env s, [], by simp, .nil⟩

theorem singleStep_spec (g : Ok env s) (i : InSingle (pre env s)) : wp singleStep (fun r s' => match r with
    | .inl _ => Fwd env s s' ∧ s.idx < s'.idx ∧ InSingle (pre env s')
    | .inr _ => Fwd env s s') env s := by
  unfold singleStep
  rw [wp_bind, wp_rem, wp_bind]
  obtain ⟨v, t, e, hl, hv, ho, ht⟩ := singleRun_spec s.rem
  refine y_emitIf g (by rw [hl, e]; simp) (by simp) (fun _ => ?_) fun s1 h1 => ?_
  · rw [hl, e]
    exact .singleText i hv ho ht
  have i1 : InSingle (pre env s1) := by
    rw [h1.pre, hl, e, List.take_left]
    exact inSingle_append i hv
  have hr : s1.rem = t := by rw [h1.rem, hl, e, List.drop_left]
  rw [wp_bind, wp_rem, hr]
  split
  · rw [wp_pure]
    exact h1.fwd
  · rename_i c hc
    cases t with
    | nil => simp at hc
    | cons d t =>
      simp at hc
      subst hc
      split
      · rename_i h2
        rw [wp_bind]
        refine y_emit h1.good (by omega) (by rw [hr]; simp) (by simp) (.quote (by rw [hr, h2]; simp)) fun s2 h3 => ?_
        rw [wp_pure]
        exact h1.fwd.trans h3.fwd
      · rename_i h2
        have h4 : matchLineBreak s1.rem ≠ 0 := by
          refine matchLineBreak_ne.2 ⟨_, t, hr, ?_⟩
          unfold InLine
          simp at ht
          grind
        have := nextLine_spec h1.good
        rw [wp_bind] at this
        rw [wp_bind]
        refine wp_mono this ?_
        rintro ⟨⟩ s2 h5
        rw [wp_bind]
        refine wp_mono h5 ?_
        rintro ⟨⟩ s3 ⟨n, h6, h7, h8⟩
        rw [wp_pure]
        refine ⟨h1.fwd.trans h6.fwd, ?_, ?_⟩
        · have := h1.fwd.le
          rw [h6.idx]
          omega
        · rw [h6.pre]
          refine inSingle_append i1 (singleText_plain ?_)
          intro c hc
          have := h8 c hc
          simp at this
          grind

theorem singleQuoted_spec (g : Ok env s) (h : startsWith s.rem b!"'" = true) (isKey : Bool) :
    wp (singleQuoted isKey) (fun _ s' => Fwd env s s' ∧ s.idx < s'.idx) env s := by
  unfold singleQuoted
  rw [wp_bind, wp_rem, wp_bind, wp_hassert]
  refine ⟨h, ?_⟩
  obtain ⟨t, ht⟩ := startsWith_head h
  split
  · have hk := singleKey_quoted t
    refine y_emit g (by omega) (by rw [ht]; simpa using hk.2) (by simp) (.quotedKey (by rw [ht]; simpa using hk.1))
      fun s1 h1 => ?_
    exact ⟨h1.fwd, by rw [h1.idx]; omega⟩
  · rw [wp_bind]
    refine y_emit g (by omega) (by rw [ht]; simp) (by simp) (.quote (by rw [ht]; simp)) fun s1 h1 => ?_
    rw [wp_bind, wp_rem]
    have lt : s.idx < s1.idx := by rw [h1.idx]; omega
    refine y_loop (fun s2 => InSingle (pre env s2)) ?_ h1.good ?_ (by omega)
    · intro s2 f2 i2
      refine wp_mono (singleStep_spec f2.good i2) ?_
      rintro (⟨⟩ | ⟨⟩) s3 h3
      · exact h3
      · have := f2.le
        have := h3.le
        exact ⟨h1.fwd.trans (f2.trans h3), by omega⟩
    · rw [h1.pre, ht]
      exact ⟨pre env s, [], by simp, .nil⟩

theorem words_types : ∀ w ∈ words, 0 < w.1.length ∧ w.2 ≠ HT.none := by decide +kernel

theorem plainScalar_spec (g : Ok env s) (isKey : Bool) : wp (plainScalar isKey) (fun _ s' => Fwd env s s' ∧
    (∀ c t, s.rem = c :: t → isPlainEnd c = false → s.idx < s'.idx)) env s := by
  unfold plainScalar
  rw [wp_bind, wp_rem]
  split
  · rename_i h
    have hs := startsWith_facts h 1 rfl
    refine y_emit g (by omega) hs.1 (by simp) (.tilde hs.2) fun s1 h1 => ?_
    exact ⟨h1.fwd, fun _ _ _ _ => by rw [h1.idx]; omega⟩
  · rename_i h0
    split
    · rename_i w hw
      rw [Option.filter_eq_some_iff] at hw
      obtain ⟨hw, hst⟩ := hw
      obtain ⟨hm, hsw⟩ := matchWord_some hw
      obtain ⟨t, ht⟩ := startsWith_iff.1 hsw
      obtain ⟨pos, hty⟩ := words_types w hm
      rw [ht, List.drop_left] at hst
      refine y_emit g pos (by rw [ht]; simp) hty ?_ fun s1 h1 => ?_
      · rw [ht]
        exact .word ((words_mem _).1 hm) (wordStops_iff.1 hst)
      · exact ⟨h1.fwd, fun _ _ _ _ => by rw [h1.idx]; omega⟩
    · rename_i hw
      dsimp only
      split
      · rename_i hn
        simp only [ne_eq, decide_not, Bool.and_eq_true, Bool.not_eq_true', decide_eq_false_iff_not] at hn
        obtain ⟨w, t, e, hl, hnum⟩ := matchNumber_facts hn.1
        have hst : NumberStops t := by
          have := numberStops_of hn.2
          rw [hl, e, List.drop_left] at this
          exact this
        refine y_emit g (by omega) (by rw [hl, e]; simp) (by split <;> simp) ?_ fun s1 h1 => ?_
        · have : Tok (pre env s) (w ++ t) w.length (if (matchNumber s.rem).erroneous = true then .error else .number) := by
            split
            · rename_i he
              rw [if_pos he] at hnum
              exact .badNumber hnum hst
            · rename_i he
              rw [if_neg he] at hnum
              exact .number hnum hst
          rw [hl]
          rw [← e] at this
          exact this
        · exact ⟨h1.fwd, fun _ _ _ _ => by rw [h1.idx]; omega⟩
      · obtain ⟨i1, i2⟩ := plainLength_spec false s.rem
        have hplain : 0 < plainLength false s.rem → Plain s.rem (plainLength false s.rem) := by
          intro h0'
          refine ⟨?_, ?_, fun k hk => by simpa using i1 k hk, by simpa [h0'] using i2⟩
          · intro e
            rw [List.head?_eq_getElem?] at e
            exact h0 (startsWith_of_head e)
          · intro w hm t e hst
            rw [Option.filter_eq_none_iff] at hw
            have := matchWord_complete ((words_mem w).2 hm) t
            rw [← e] at this
            refine hw w this ?_
            rw [e, List.drop_left]
            exact wordStops_iff.2 hst
        refine y_emitIf g (plainLength_le _ _) (by split <;> simp) (fun h0' => ?_) fun s1 h1 => ?_
        · split
          · exact .plainKey (hplain h0')
          · exact .plain (hplain h0')
        · refine ⟨h1.fwd, ?_⟩
          intro c t e hc
          rw [h1.idx, e]
          unfold plainLength
          simp [hc]

/-- A flow node can begin here. -/
def Solid (r : Bytes) : Prop := ∃ c t, r = c :: t ∧ c ∉ b!" \t\r\n#,]}"

theorem flowScalar_spec (g : Ok env s) (isKey : Bool) : wp (flowScalar isKey) (fun _ s' => Fwd env s s' ∧
    (∀ c t, s.rem = c :: t → isPlainEnd c = false → s.idx < s'.idx)) env s := by
  unfold flowScalar
  rw [wp_bind, wp_rem]
  split
  · rename_i h
    rw [wp_pure]
    refine ⟨.refl g, ?_⟩
    intro c t e
    rw [e] at h
    simp at h
  · rename_i c hc
    split
    · rename_i h
      subst h
      refine wp_mono (doubleQuoted_spec g (startsWith_of_head hc) isKey) ?_
      exact fun _ _ h => ⟨h.1, fun _ _ _ _ => h.2⟩
    · split
      · rename_i h
        subst h
        refine wp_mono (singleQuoted_spec g (startsWith_of_head hc) isKey) ?_
        exact fun _ _ h => ⟨h.1, fun _ _ _ _ => h.2⟩
      · split
        · rename_i h
          subst h
          obtain ⟨t, ht⟩ := startsWith_head (startsWith_of_head hc)
          refine wp_mono (reference_spec g ht (by simp)) ?_
          exact fun _ _ h => ⟨h.1, fun _ _ _ _ => h.2⟩
        · exact plainScalar_spec g isKey

/-! ## Block scalars -/

/-- At the beginning of a line in a block scalar. -/
def BlockLine (p : Bytes) : Prop := ∃ u c v e, p = u ++ [c] ++ v ++ [e] ∧ c ∈ b!"|>" ∧ e ∈ b!"\r\n"

theorem BlockLine.next {p v : Bytes} {e : UInt8} (h : BlockLine p) (he : e ∈ b!"\r\n") : BlockLine (p ++ v ++ [e]) := by
  obtain ⟨u, c, w, d, rfl, hc, _⟩ := h
  exact ⟨u, c, w ++ [d] ++ v, e, by simp, hc, he⟩

theorem blockHeader_spec (g : Ok env s) (h : (startsWith s.rem b!"|" || startsWith s.rem b!">") = true) :
    wp blockHeader (fun _ s' => Fwd env s s' ∧ s.idx < s'.idx ∧ (s'.rem = [] ∨ BlockLine (pre env s'))) env s := by
  unfold blockHeader
  rw [wp_bind, wp_rem, wp_bind, wp_hassert]
  refine ⟨h, ?_⟩
  have hr : ∃ c t, s.rem = c :: t ∧ c ∈ b!"|>" := by
    simp at h
    rcases h with h | h
    · obtain ⟨t, ht⟩ := startsWith_head h
      exact ⟨_, t, ht, by simp⟩
    · obtain ⟨t, ht⟩ := startsWith_head h
      exact ⟨_, t, ht, by simp⟩
  obtain ⟨c, t, hr, hc⟩ := hr
  rw [wp_bind]
  refine y_emit g (by omega) (by rw [hr]; simp) (by simp) (.blockMark (by rw [hr]; simpa using hc)) fun s1 h1 => ?_
  have p1 : pre env s1 = pre env s ++ [c] := by rw [h1.pre, hr]; rfl
  have am : AfterMark (pre env s1) := ⟨_, c, p1, hc⟩
  rw [wp_bind, wp_rem, wp_bind]
  have h2 : ∃ w ∈ [b!"", b!"+", b!"-"],
      s1.rem.take (if startsWith s1.rem b!"+" || startsWith s1.rem b!"-" then 1 else 0) = w ∧
      (if startsWith s1.rem b!"+" || startsWith s1.rem b!"-" then 1 else 0) ≤ s1.rem.length ∧
      (0 < (if startsWith s1.rem b!"+" || startsWith s1.rem b!"-" then 1 else 0) → w ∈ [b!"+", b!"-"]) := by
    split
    · rename_i h
      simp at h
      rcases h with h | h
      · have := startsWith_facts h 1 rfl
        exact ⟨_, by simp, this.2, this.1, by simp⟩
      · have := startsWith_facts h 1 rfl
        exact ⟨_, by simp, this.2, this.1, by simp⟩
    · exact ⟨[], by simp, by simp, by simp, by simp⟩
  generalize (if startsWith s1.rem b!"+" || startsWith s1.rem b!"-" then 1 else 0) = n1 at h2
  obtain ⟨w, hw, h2, h3, h4⟩ := h2
  refine y_emitIf h1.good h3 (by simp) (fun h0 => .chomping am (by rw [h2]; exact h4 h0)) fun s2 h5 => ?_
  rw [wp_bind, wp_rem, wp_bind]
  have h6 : (if (s2.rem[0]?).any (fun c => decide (c!"1" ≤ c) && decide (c ≤ c!"9")) then 1 else 0) ≤ s2.rem.length ∧
      (0 < (if (s2.rem[0]?).any (fun c => decide (c!"1" ≤ c) && decide (c ≤ c!"9")) then 1 else 0) →
        ∃ d, s2.rem.take (if (s2.rem[0]?).any (fun c => decide (c!"1" ≤ c) && decide (c ≤ c!"9")) then 1 else 0) = [d] ∧
          DecDigit d ∧ d ≠ c!"0") := by
    cases s2.rem with
    | nil => simp
    | cons d t =>
      split
      · rename_i h
        refine ⟨by simp, fun _ => ⟨d, by simp, ?_⟩⟩
        simp [UInt8.le_iff_toNat_le] at h
        refine ⟨⟨by omega, by omega⟩, ?_⟩
        intro e
        rw [e] at h
        simp at h
      · simp
  generalize (if (s2.rem[0]?).any (fun c => decide (c!"1" ≤ c) && decide (c ≤ c!"9")) then 1 else 0) = n2 at h6
  refine y_emitIf h5.good h6.1 (by simp) (fun h0 => ?_) fun s3 h7 => ?_
  · obtain ⟨d, hd, hd'⟩ := h6.2 h0
    rw [h5.pre, h2]
    exact .indentation am hw hd hd'
  have lt : s.idx < s3.idx := by
    have := h1.idx
    have := h5.fwd.le
    have := h7.fwd.le
    omega
  have f3 : Fwd env s1 s3 := h5.fwd.trans h7.fwd
  have fin : ∀ s4 s5, Fwd env s3 s4 → AfterBreak env s4 s5 → s5.rem = [] ∨ BlockLine (pre env s5) := by
    intro s4 s5 f h
    rcases h with h | ⟨v, e, h, he⟩
    · exact Or.inl h
    · right
      rw [h, (f3.trans f).pre h1.good, p1]
      exact ⟨_, c, _, e, by rw [List.append_assoc (_ ++ [c])], hc, he⟩
  rw [wp_bind, wp_rem]
  split
  · rename_i h8
    rw [wp_bind]
    refine wp_mono (comment_spec h7.good h8) ?_
    rintro ⟨⟩ s4 ⟨h9, h10⟩
    refine wp_mono (skipLine_spec h9.good) ?_
    rintro ⟨⟩ s5 ⟨h11, _, h12⟩
    have := h9.le
    have := h11.le
    exact ⟨h1.fwd.trans (f3.trans (h9.trans h11)), by omega, fin _ _ h9 h12⟩
  · refine wp_mono (skipLine_spec h7.good) ?_
    rintro ⟨⟩ s5 ⟨h11, _, h12⟩
    have := h11.le
    exact ⟨h1.fwd.trans (f3.trans h11), by omega, fin _ _ (.refl h7.good) h12⟩

theorem blankLines_spec (g : Ok env s) (i : s.rem = [] ∨ BlockLine (pre env s)) :
    wp blankLines (fun _ s' => Fwd env s s' ∧ (s'.rem = [] ∨ BlockLine (pre env s'))) env s := by
  unfold blankLines
  rw [wp_bind, wp_rem]
  refine y_loop (fun s1 => s1.rem = [] ∨ BlockLine (pre env s1)) ?_ g i (by omega)
  intro s1 f1 i1
  rw [wp_bind, wp_rem]
  split
  · rename_i h
    rw [wp_bind]
    refine wp_mono (skipLineBreak_spec f1.good) ?_
    rintro ⟨⟩ s2 h2
    rw [wp_pure]
    refine ⟨h2.fwd, by rw [h2.idx]; omega, ?_⟩
    rcases i1 with i1 | i1
    · rw [i1] at h
      exact absurd (by decide) h
    · right
      obtain ⟨w, e, hw, he⟩ := matchLineBreak_last h
      rw [h2.pre, hw, ← List.append_assoc]
      exact i1.next he
  · rw [wp_pure]
    exact ⟨f1, i1⟩

theorem blockLine_spec (g : Ok env s) (i : s.rem = [] ∨ BlockLine (pre env s)) (indent : Nat) :
    wp (blockLine indent) (fun r s' => match r with
      | .inl _ => Fwd env s s' ∧ s.idx < s'.idx ∧ (s'.rem = [] ∨ BlockLine (pre env s'))
      | .inr _ => Fwd env s s') env s := by
  unfold blockLine
  rw [wp_bind, wp_rem]
  split
  · rw [wp_pure]
    exact .refl g
  · rename_i hne
    have i : BlockLine (pre env s) := by
      rcases i with i | i
      · exact absurd i hne
      · exact i
    split
    · rw [wp_pure]
      exact .refl g
    · split
      · rename_i h
        rw [wp_bind]
        refine wp_mono (skipLineBreak_spec g) ?_
        rintro ⟨⟩ s2 h2
        rw [wp_pure]
        refine ⟨h2.fwd, by rw [h2.idx]; omega, Or.inr ?_⟩
        obtain ⟨w, e, hw, he⟩ := matchLineBreak_last h
        rw [h2.pre, hw, ← List.append_assoc]
        exact i.next he
      · rename_i hlb
        split
        · rw [wp_pure]
          exact .refl g
        · rw [wp_bind]
          refine wp_mono (consumeIndent_spec g indent) ?_
          rintro ⟨⟩ s1 h1
          rw [wp_bind, wp_rem, wp_bind]
          obtain ⟨u, c, v, e, hp, hc, he⟩ := i
          refine y_emitIf h1.good (lineLength_le _) (by simp) (fun _ => ?_) fun s2 h2 => ?_
          · refine .blockText ⟨u, c, v, e, min indent (currentIndent s.rem), ?_, hc, he⟩ (lineLength_longest _)
            rw [h1.pre, hp, spaces_of _ _ (Nat.min_le_right _ _)]
          rw [wp_bind]
          refine wp_mono (skipLineBreak_spec h2.good) ?_
          rintro ⟨⟩ s3 h3
          rw [wp_pure]
          refine ⟨h1.fwd.trans (h2.fwd.trans h3.fwd), ?_, ?_⟩
          · have e1 := h1.idx
            have e2 := h2.idx
            have e3 := h3.idx
            apply Classical.byContradiction
            intro hn
            have z : min indent (currentIndent s.rem) = 0 := by omega
            have r1 : s1.rem = s.rem := by rw [h1.rem, z]; simp
            have : lineLength s.rem = 0 := by rw [← r1]; omega
            rcases lineLength_break (r := s.rem) with h | h
            · rw [this] at h
              exact hne h
            · rw [this] at h
              exact hlb h
          · rcases lineLength_break (r := s1.rem) with h | h
            · left
              rw [h3.rem, h2.rem, h]
              simp
            · right
              rw [← h2.rem] at h
              obtain ⟨w, e', hw, he'⟩ := matchLineBreak_last h
              rw [h3.pre, h2.pre, h1.pre, hw, hp]
              exact ⟨u, c, v ++ [e] ++ s.rem.take (min indent (currentIndent s.rem)) ++
                s1.rem.take (lineLength s1.rem) ++ w, e', by simp, hc, he'⟩

theorem blockScalar_spec (g : Ok env s) (h : (startsWith s.rem b!"|" || startsWith s.rem b!">") = true) (indent : Nat) :
    wp (blockScalar indent) (fun _ s' => Fwd env s s' ∧ s.idx < s'.idx) env s := by
  unfold blockScalar
  rw [wp_bind]
  refine wp_mono (blockHeader_spec g h) ?_
  rintro ⟨⟩ s1 ⟨h1, h2, h3⟩
  rw [wp_bind]
  refine wp_mono (blankLines_spec h1.good h3) ?_
  rintro ⟨⟩ s2 ⟨h4, h5⟩
  have l := h4.le
  rw [wp_bind, wp_rem]
  split
  · rw [wp_pure]
    exact ⟨h1.trans h4, by omega⟩
  · refine y_loop (fun s3 => s3.rem = [] ∨ BlockLine (pre env s3)) ?_ h4.good h5 (by omega)
    intro s3 f3 i3
    refine wp_mono (blockLine_spec f3.good i3 _) ?_
    rintro (⟨⟩ | ⟨⟩) s4 h6
    · exact h6
    · have := f3.le
      have := h6.le
      exact ⟨h1.trans (h4.trans (f3.trans h6)), by omega⟩

/-! ## Flow nodes -/

/-- What the nested calls do, up to a length of the rest of the text. -/
def Again (env : HEnv) (again : Nat → Bool → HM St Unit) (fuel : Nat) : Prop :=
  ∀ indent isKey s, Ok env s → s.rem.length < fuel →
    wp (again indent isKey) (fun _ s' => Fwd env s s' ∧ (Solid s.rem → s.idx < s'.idx)) env s

theorem solid_of_clean {r : Bytes} {c : UInt8} (h : Clean r) (hc : r[0]? = some c) (h' : c ∉ b!",]}") : Solid r := by
  cases r with
  | nil => simp at hc
  | cons d t =>
    simp at hc
    subst hc
    have := h d rfl
    refine ⟨d, t, rfl, ?_⟩
    simp at this h' ⊢
    grind

theorem flowSwitch_spec (g : Ok env s) {op close wrong : UInt8} {ty : HT} (hty : ty ≠ .none) (ho : op ∈ pre env s)
    (hc : ∀ p r, op ∈ p → Tok p (close :: r) 1 ty) (hw : ∀ p r, op ∈ p → Tok p (wrong :: r) 1 .error)
    (hcw : close ∈ b!"]}" ∧ wrong ∈ b!"]}" ∧ close ≠ wrong) :
    wp (flowSwitch close wrong ty) (fun r s' => Fwd env s s' ∧ match r with
      | some (.inl _) => s.idx < s'.idx
      | some (.inr _) => True
      | none => Solid s'.rem) env s := by
  unfold flowSwitch
  rw [wp_bind]
  refine wp_mono (whitespace_spec g) ?_
  rintro ⟨⟩ s1 ⟨h1, h2, _⟩
  have ho1 := h1.mem ho
  have l1 := h1.le
  rw [wp_bind, wp_rem]
  split
  · rw [wp_pure]
    exact ⟨h1, trivial⟩
  · rename_i c hc0
    obtain ⟨t, hr⟩ := startsWith_head (startsWith_of_head hc0)
    split
    · rename_i h3
      rw [wp_bind]
      refine y_emit h1.good (by omega) (by rw [hr]; simp) hty (by rw [hr, h3]; exact hc _ _ ho1) fun s2 h4 => ?_
      rw [wp_pure]
      exact ⟨h1.trans h4.fwd, trivial⟩
    · rename_i n1
      split
      · rename_i h3
        rw [wp_bind]
        refine y_emit h1.good (by omega) (by rw [hr]; simp) (by simp) (by rw [hr, h3]; exact hw _ _ ho1) fun s2 h4 => ?_
        rw [wp_pure]
        exact ⟨h1.trans h4.fwd, trivial⟩
      · rename_i n2
        split
        · rename_i h3
          rw [wp_bind]
          refine y_emit h1.good (by omega) (by rw [hr]; simp) (by simp) (.punctuation (by rw [hr, h3]; simp)) fun s2 h4 => ?_
          rw [wp_pure]
          exact ⟨h1.trans h4.fwd, by show _ < _; rw [h4.idx]; omega⟩
        · rename_i n3
          have hcl := h2 c (by rw [List.head?_eq_getElem?]; exact hc0)
          split
          · rename_i h3
            simp at hcl h3
            grind
          · split
            · rename_i h3
              simp at hcl h3
              grind
            · rw [wp_pure]
              refine ⟨h1, solid_of_clean h2 hc0 ?_⟩
              simp at hcw ⊢
              grind

theorem flowSequence_spec {again : Nat → Bool → HM St Unit} {fuel : Nat} (ha : Again env again fuel) (g : Ok env s)
    (hf : s.rem.length < fuel + 1) (h : startsWith s.rem b!"[" = true) (indent : Nat) :
    wp (flowSequence again indent) (fun _ s' => Fwd env s s' ∧ s.idx < s'.idx) env s := by
  unfold flowSequence
  rw [wp_bind, wp_rem, wp_bind, wp_hassert]
  refine ⟨h, ?_⟩
  have hs := startsWith_facts h 1 rfl
  rw [wp_bind]
  refine y_emit g (by omega) hs.1 (by simp) (.openSquare hs.2) fun s1 h1 => ?_
  have ho : c!"[" ∈ pre env s1 := by rw [h1.pre, hs.2]; simp
  have e1 := h1.idx
  rw [wp_bind, wp_rem]
  refine y_loop (fun _ => True) ?_ h1.good trivial (by omega)
  intro s2 f2 _
  have l2 := f2.le
  unfold flowSequenceStep
  rw [wp_bind]
  refine wp_mono (flowSwitch_spec f2.good (by simp) (f2.mem ho) (fun p r h => .closeSquare rfl h)
    (fun p r h => .wrongBrace rfl h) (by decide)) ?_
  rintro (_ | (⟨⟩ | ⟨⟩)) s3 ⟨f3, h3⟩
  · dsimp only at h3
    have l3 := f3.le
    rw [wp_bind]
    have n1 := g.len
    have n3 := f3.good.len
    refine wp_mono (ha indent false s3 f3.good (by omega)) ?_
    rintro ⟨⟩ s4 ⟨f4, h4⟩
    have h4 := h4 h3
    rw [wp_bind]
    refine wp_mono (whitespace_spec f4.good) ?_
    rintro ⟨⟩ s5 ⟨f5, _⟩
    have l5 := f5.le
    rw [wp_pure]
    exact ⟨f3.trans (f4.trans f5), by omega, trivial⟩
  · rw [wp_pure]
    exact ⟨f3, h3, trivial⟩
  · rw [wp_pure]
    have l3 := f3.le
    exact ⟨h1.fwd.trans (f2.trans f3), by omega⟩

theorem entryKey_spec {again : Nat → Bool → HM St Unit} {fuel : Nat} (ha : Again env again fuel) (g : Ok env s)
    (hf : s.rem.length < fuel) (h : Solid s.rem) (indent : Nat) :
    wp (entryKey again indent) (fun _ s' => Fwd env s s' ∧ s.idx < s'.idx) env s := by
  unfold entryKey
  rw [wp_bind, wp_rem]
  split
  · rename_i h1
    have hs := startsWith_facts h1 1 rfl
    rw [wp_bind]
    refine y_emit g (by omega) hs.1 (by simp) (.punctuation (by rw [hs.2]; simp)) fun s1 h1 => ?_
    have e1 := h1.idx
    rw [wp_bind]
    refine wp_mono (whitespace_spec h1.good) ?_
    rintro ⟨⟩ s2 ⟨f2, _⟩
    have l2 := f2.le
    have n1 := g.len
    have n3 := f2.good.len
    refine wp_mono (ha indent true s2 f2.good (by omega)) ?_
    rintro ⟨⟩ s3 ⟨f3, _⟩
    have l3 := f3.le
    exact ⟨h1.fwd.trans (f2.trans f3), by omega⟩
  · refine wp_mono (ha indent true s g hf) ?_
    exact fun _ _ h' => ⟨h'.1, h'.2 h⟩

theorem flowEntry_spec {again : Nat → Bool → HM St Unit} {fuel : Nat} (ha : Again env again fuel) (g : Ok env s)
    (hf : s.rem.length < fuel) (h : Solid s.rem) (indent : Nat) :
    wp (flowEntry again indent) (fun _ s' => Fwd env s s' ∧ s.idx < s'.idx) env s := by
  unfold flowEntry
  rw [wp_bind]
  refine wp_mono (entryKey_spec ha g hf h indent) ?_
  rintro ⟨⟩ s1 ⟨f1, h1⟩
  rw [wp_bind]
  refine wp_mono (whitespace_spec f1.good) ?_
  rintro ⟨⟩ s2 ⟨f2, _⟩
  have l2 := f2.le
  rw [wp_bind, wp_rem]
  split
  · rename_i h2
    have hs := startsWith_facts h2 1 rfl
    rw [wp_bind]
    refine y_emit f2.good (by omega) hs.1 (by simp) (.punctuation (by rw [hs.2]; simp)) fun s3 h3 => ?_
    have e3 := h3.idx
    rw [wp_bind]
    refine wp_mono (whitespace_spec h3.good) ?_
    rintro ⟨⟩ s4 ⟨f4, _⟩
    have l4 := f4.le
    rw [wp_bind, wp_rem]
    split
    · have n1 := g.len
      have n3 := f4.good.len
      refine wp_mono (ha indent false s4 f4.good (by omega)) ?_
      rintro ⟨⟩ s5 ⟨f5, _⟩
      have l5 := f5.le
      exact ⟨f1.trans (f2.trans (h3.fwd.trans (f4.trans f5))), by omega⟩
    · rw [wp_pure]
      exact ⟨f1.trans (f2.trans (h3.fwd.trans f4)), by omega⟩
  · rw [wp_pure]
    exact ⟨f1.trans f2, by omega⟩

theorem flowMapping_spec {again : Nat → Bool → HM St Unit} {fuel : Nat} (ha : Again env again fuel) (g : Ok env s)
    (hf : s.rem.length < fuel + 1) (h : startsWith s.rem b!"{" = true) (indent : Nat) :
    wp (flowMapping again indent) (fun _ s' => Fwd env s s' ∧ s.idx < s'.idx) env s := by
  unfold flowMapping
  rw [wp_bind, wp_rem, wp_bind, wp_hassert]
  refine ⟨h, ?_⟩
  have hs := startsWith_facts h 1 rfl
  rw [wp_bind]
  refine y_emit g (by omega) hs.1 (by simp) (.openBrace hs.2) fun s1 h1 => ?_
  have ho : c!"{" ∈ pre env s1 := by rw [h1.pre, hs.2]; simp
  have e1 := h1.idx
  rw [wp_bind, wp_rem]
  refine y_loop (fun _ => True) ?_ h1.good trivial (by omega)
  intro s2 f2 _
  have l2 := f2.le
  unfold flowMappingStep
  rw [wp_bind]
  refine wp_mono (flowSwitch_spec f2.good (by simp) (f2.mem ho) (fun p r h => .closeBrace rfl h)
    (fun p r h => .wrongSquare rfl h) (by decide)) ?_
  rintro (_ | (⟨⟩ | ⟨⟩)) s3 ⟨f3, h3⟩
  · dsimp only at h3
    have l3 := f3.le
    rw [wp_bind]
    have n1 := g.len
    have n3 := f3.good.len
    refine wp_mono (flowEntry_spec ha f3.good (by omega) h3 indent) ?_
    rintro ⟨⟩ s4 ⟨f4, h4⟩
    rw [wp_bind]
    refine wp_mono (whitespace_spec f4.good) ?_
    rintro ⟨⟩ s5 ⟨f5, _⟩
    have l5 := f5.le
    rw [wp_pure]
    exact ⟨f3.trans (f4.trans f5), by omega, trivial⟩
  · rw [wp_pure]
    exact ⟨f3, h3, trivial⟩
  · rw [wp_pure]
    have l3 := f3.le
    exact ⟨h1.fwd.trans (f2.trans f3), by omega⟩

theorem flowNodeBody_spec {again : Nat → Bool → HM St Unit} {fuel : Nat} (ha : Again env again fuel) (g : Ok env s)
    (hf : s.rem.length < fuel + 1) (indent : Nat) (isKey : Bool) :
    wp (flowNodeBody again indent isKey) (fun _ s' => Fwd env s s' ∧ (Solid s.rem → s.idx < s'.idx)) env s := by
  unfold flowNodeBody
  rw [wp_bind]
  refine wp_mono (whitespace_spec g) ?_
  rintro ⟨⟩ s1 ⟨f1, c1, e1⟩
  have l1 := f1.le
  have same : Solid s.rem → s1.rem = s.rem ∧ s1.idx = s.idx := by
    rintro ⟨c, t, hr, hc⟩
    have : s1.idx = s.idx := by
      refine e1 ?_
      intro d hd
      rw [hr] at hd
      simp at hd
      subst hd
      simp at hc ⊢
      grind
    exact ⟨f1.same g this, this⟩
  rw [wp_bind, wp_rem]
  split
  · rename_i h
    rw [wp_pure]
    refine ⟨f1, ?_⟩
    intro hs
    rw [(same hs).1] at h
    obtain ⟨c, t, hr, hc⟩ := hs
    simp only [hr, ne_eq, decide_not, Bool.or_eq_true, decide_eq_true_eq, Bool.not_eq_true',
      decide_eq_false_iff_not, reduceCtorEq, false_or] at h
    obtain ⟨d, u, e, hl⟩ := matchLineBreak_ne.1 h
    simp at e
    unfold InLine at hl
    simp at hc
    grind
  · rw [wp_bind]
    refine wp_mono (nodeProperties_spec f1.good) ?_
    rintro ⟨⟩ s2 f2
    have l2 := f2.le
    have n0 := g.len
    have n2 := f2.good.len
    have fin : ∀ s3, Fwd env s2 s3 → s2.idx < s3.idx → Fwd env s s3 ∧ (Solid s.rem → s.idx < s3.idx) :=
      fun s3 f3 h3 => ⟨f1.trans (f2.trans f3), fun _ => by omega⟩
    rw [wp_bind, wp_rem]
    split
    · rename_i h
      refine wp_mono (flowSequence_spec ha f2.good (by omega) h indent) ?_
      exact fun _ s3 h3 => fin s3 h3.1 h3.2
    · rename_i n1
      split
      · rename_i h
        refine wp_mono (flowMapping_spec ha f2.good (by omega) h indent) ?_
        exact fun _ s3 h3 => fin s3 h3.1 h3.2
      · rename_i n2'
        split
        · rename_i h
          refine wp_mono (blockScalar_spec f2.good h indent) ?_
          exact fun _ s3 h3 => fin s3 h3.1 h3.2
        · refine wp_mono (flowScalar_spec f2.good isKey) ?_
          rintro ⟨⟩ s3 ⟨f3, h3⟩
          refine ⟨f1.trans (f2.trans f3), ?_⟩
          intro hs
          have l3 := f3.le
          by_cases hlt : s1.idx < s2.idx
          · omega
          · have er : s2.rem = s.rem := by rw [f2.same f1.good (by omega), (same hs).1]
            obtain ⟨c, t, hr, hc⟩ := hs
            have := h3 c t (by rw [er, hr]) (by
              rw [er, hr] at n1 n2'
              simp [startsWith] at n1 n2'
              unfold isPlainEnd
              simp at hc ⊢
              grind)
            omega

theorem flowNodeLoop_spec : ∀ fuel, Again env (flowNodeLoop fuel) fuel
  | 0 => fun _ _ _ _ h => absurd h (by omega)
  | fuel + 1 => fun indent isKey s g h => by
    unfold flowNodeLoop
    exact flowNodeBody_spec (flowNodeLoop_spec fuel) g h indent isKey

theorem flowNode_spec (g : Ok env s) (indent : Nat) (isKey : Bool) :
    wp (flowNode indent isKey) (fun _ s' => Fwd env s s' ∧ (Solid s.rem → s.idx < s'.idx)) env s := by
  unfold flowNode
  rw [wp_bind, wp_rem]
  exact flowNodeLoop_spec _ indent isKey s g (by omega)

/-! ## Block nodes -/

theorem marks_cons_le (c : UInt8) (t : Bytes) : marks t ≤ marks (c :: t) := by
  rw [marks]
  omega

theorem marks_drop (n : Nat) (r : Bytes) : marks (r.drop n) ≤ marks r := by
  induction r generalizing n with
  | nil => simp
  | cons c t ih =>
    cases n with
    | zero => simp
    | succ n =>
      have := ih n
      have := marks_cons_le c t
      simp
      omega

theorem marks_append (v t : Bytes) : marks t ≤ marks (v ++ t) := by
  have := marks_drop v.length (v ++ t)
  simpa using this

theorem marks_colon {t : Bytes} (h : Separates t) : marks (c!":" :: t) = marks t + 1 := by
  rw [marks, if_pos]
  · omega
  · right
    refine ⟨rfl, ?_⟩
    unfold Separates at h
    cases t with
    | nil => rfl
    | cons c t => simpa using h c rfl

theorem marks_dash {t : Bytes} : marks (c!"-" :: c!" " :: t) = marks (c!" " :: t) + 1 := by
  rw [marks, if_pos]
  · omega
  · exact Or.inl ⟨rfl, rfl⟩

/-- The stack of indentations, with what can still be pushed on it, is not greater than `B`. -/
def Room (B : Nat) (s : HS St) : Prop := s.ext.length + marks s.rem ≤ B

/-- `s'` is not before `s` and has the given room. -/
structure Goes (env : HEnv) (B : Nat) (s s' : HS St) : Prop where
  good : Ok env s'
  le : s.idx ≤ s'.idx
  room : Room B s'

theorem Room.fwd {B : Nat} {s' : HS St} (g : Ok env s) (h : Room B s) (f : Fwd env s s') : Room B s' := by
  unfold Room at h ⊢
  have := marks_drop (s'.idx - s.idx) s.rem
  rw [f.rem g, f.ext]
  omega

theorem Goes.after {B : Nat} {s1 s2 : HS St} (f : Fwd env s s1) (h : Goes env B s1 s2) : Goes env B s s2 :=
  ⟨h.good, Nat.le_trans f.le h.le, h.room⟩

theorem Goes.trans {A B : Nat} {s1 s2 : HS St} (f : Goes env A s s1) (h : Goes env B s1 s2) : Goes env B s s2 :=
  ⟨h.good, Nat.le_trans f.le h.le, h.room⟩

theorem Goes.of_fwd {B : Nat} {s' : HS St} (g : Ok env s) (h : Room B s) (f : Fwd env s s') : Goes env B s s' :=
  ⟨f.good, f.le, h.fwd g f⟩

/-- A document marker is at the beginning. -/
def Marker (r : Bytes) : Prop := startsWith r b!"---" = true ∨ startsWith r b!"..." = true

/-- What the nested calls do, up to a length of the rest of the text. -/
def AgainB (env : HEnv) (again : Nat → Nat → HM St Unit) (fuel : Nat) : Prop :=
  ∀ B indent offset s, B ≤ 64 → Ok env s → Room B s → s.rem.length < fuel →
    wp (again indent offset) (fun _ s' => Goes env B s s' ∧
      (indent ≤ offset → s'.rem = [] ∨ Marker s'.rem ∨ s.idx < s'.idx)) env s

variable {again : Nat → Nat → HM St Unit} {fuel B : Nat}

theorem descend_spec (ha : AgainB env again fuel) (hB : B ≤ 64) (g : Ok env s) (hr : Room B s)
    (hf : s.rem.length < fuel) (indent : Nat) : wp (descend again indent) (fun _ s' => Goes env B s s') env s := by
  unfold descend
  rw [wp_bind]
  refine wp_mono (skipBlank_spec g) ?_
  rintro ⟨⟩ s1 ⟨f1, _⟩
  have l1 := f1.le
  have n0 := g.len
  have n1 := f1.good.len
  rw [wp_bind, wp_rem]
  split
  · refine wp_mono (ha B indent 0 s1 hB f1.good (hr.fwd g f1) (by omega)) ?_
    exact fun _ s2 h2 => h2.1.after f1
  · rw [wp_pure]
    exact .of_fwd g hr f1

theorem skipDescend_spec (ha : AgainB env again fuel) (hB : B ≤ 64) (g : Ok env s) (hr : Room B s)
    (hf : s.rem.length < fuel) (indent : Nat) :
    wp (do skipLine; descend again indent) (fun _ s' => Goes env B s s') env s := by
  rw [wp_bind]
  refine wp_mono (skipLine_spec g) ?_
  rintro ⟨⟩ s1 ⟨f1, _⟩
  have l1 := f1.le
  have n0 := g.len
  have n1 := f1.good.len
  refine wp_mono (descend_spec ha hB f1.good (hr.fwd g f1) (by omega) indent) ?_
  exact fun _ s2 h2 => h2.after f1

theorem mappingValue_spec (ha : AgainB env again fuel) (hB : B ≤ 64) (g : Ok env s)
    (hr : Room B s ∨ (Room (B + 1) s ∧ ∃ t, s.rem = c!":" :: t ∧ Separates t))
    (hf : s.rem.length < fuel) (indent : Nat) : wp (mappingValue again indent) (fun _ s' => Goes env B s s') env s := by
  have moved : ∀ s', Fwd env s s' → s.idx < s'.idx ∨ Room B s → Room B s' := by
    intro s' f h
    rcases hr with hr | ⟨hr, t, e, ht⟩
    · exact hr.fwd g f
    · rcases h with h | h
      · have h1 := f.rem g
        unfold Room at hr ⊢
        rw [f.ext, h1, e]
        rw [e, marks_colon ht] at hr
        obtain ⟨k, hk⟩ : ∃ k, s'.idx - s.idx = k + 1 := ⟨s'.idx - s.idx - 1, by omega⟩
        rw [hk]
        have := marks_drop k t
        simp
        omega
      · exact h.fwd g f
  have still : (∀ t, s.rem ≠ c!":" :: t) → Room B s := by
    intro h
    rcases hr with hr | ⟨_, t, e, _⟩
    · exact hr
    · exact absurd e (h t)
  unfold mappingValue
  rw [wp_bind, wp_rem]
  split
  · rename_i h
    refine skipDescend_spec ha hB g (still ?_) hf indent
    intro t e
    rw [e] at h
    simp [startsWith] at h
  · split
    · rename_i h
      have hr := still (by
        intro t e
        rw [e] at h
        simp [startsWith] at h)
      refine wp_mono (flowNode_spec g indent false) ?_
      exact fun _ s1 h1 => .of_fwd g hr h1.1
    · split
      · rename_i h1 h2 h3
        rw [wp_bind]
        refine wp_mono (flowNode_spec g indent false) ?_
        rintro ⟨⟩ s1 ⟨f1, h4⟩
        have l1 := f1.le
        have n0 := g.len
        have n1 := f1.good.len
        have hr1 : Room B s1 := by
          refine moved s1 f1 ?_
          rcases hr with hr | ⟨_, t, e, _⟩
          · exact Or.inr hr
          · exact Or.inl (h4 ⟨_, t, e, by simp⟩)
        refine wp_mono (skipDescend_spec ha hB f1.good hr1 (by omega) indent) ?_
        exact fun _ s2 h2 => h2.after f1
      · rename_i h1 h2 h3
        refine skipDescend_spec ha hB g (still ?_) hf indent
        intro t e
        refine h3 ?_
        have : matchLineBreak s.rem = 0 := by
          rw [matchLineBreak_eq, e]
          intro c hc
          simp at hc
          subst hc
          unfold InLine
          decide
        simp [e] at this ⊢
        exact this

/-- Removing the whitespace at the end. -/
theorem trim_spec (x : Bytes) : ∃ v w, x = v ++ w ∧ ((x.reverse.dropWhile isWs).reverse).length = v.length ∧
    (∀ d ∈ w, Blank d) ∧ ∀ d, v.getLast? = some d → ¬ Blank d := by
  refine ⟨(x.reverse.dropWhile isWs).reverse, (x.reverse.takeWhile isWs).reverse, ?_, rfl, ?_, ?_⟩
  · rw [← List.reverse_append, List.takeWhile_append_dropWhile, List.reverse_reverse]
  · intro d hd
    have := List.all_takeWhile (p := isWs) (l := x.reverse)
    rw [List.all_eq_true] at this
    exact isWs_blank.1 (this d (by simpa using hd))
  · intro d hd
    rw [List.getLast?_reverse] at hd
    have := List.head?_dropWhile_not isWs x.reverse
    rw [hd] at this
    rw [← isWs_blank]
    simpa using this

theorem mappingKey_spec (ha : AgainB env again fuel) (hB : B ≤ 64) (g : Ok env s) (hr : Room B s)
    (hf : s.rem.length < fuel + 1) (indent : Nat) : wp (mappingKey again indent) (fun b s' =>
      if b = true then ∃ A, B = A + 1 ∧ Goes env A s s' ∧ s.idx < s'.idx else s' = s) env s := by
  unfold mappingKey
  rw [wp_bind, wp_rem]
  split
  · rw [wp_pure]
    rfl
  · rename_i k hk
    obtain ⟨x, t, e, hl, ht, hx⟩ := findColon_some hk
    obtain ⟨v, w, hvw, hvl, hw, hv⟩ := trim_spec x
    have hm : marks s.rem ≥ marks t + 1 := by
      rw [e, ← marks_colon ht]
      have := marks_append x (c!":" :: t)
      simpa using this
    have hA : ∃ A, B = A + 1 := ⟨B - 1, by unfold Room at hr; omega⟩
    obtain ⟨A, rfl⟩ := hA
    rw [wp_bind]
    unfold flowNodeContent
    rw [wp_bind, wp_rem]
    have hxs : s.rem.take k = x := by
      rw [e, ← hl]
      simp
    rw [hxs, hvl]
    have e' : s.rem = v ++ w ++ b!":" ++ t := by rw [e, hvw]
    refine y_emitIf g (by rw [e']; simp) (by simp) (fun _ => ?_) fun s1 h1 => ?_
    · rw [e']
      rw [hvw] at hx
      exact .key hx hw hv ht
    have r1 : s1.rem = w ++ b!":" ++ t := by
      rw [h1.rem, e']
      simp
    rw [wp_bind]
    have e1 := h1.idx
    cases w with
    | nil =>
      refine y_emit h1.good (by omega) (by rw [r1]; simp) (by simp) (.punctuation (by rw [r1]; simp)) fun s2 h2 => ?_
      have r2 : s2.rem = t := by rw [h2.rem, r1]; simp
      have e2 := h2.idx
      have room2 : Room A s2 := by
        unfold Room at hr ⊢
        rw [h2.ext, h1.ext, r2]
        omega
      rw [wp_bind]
      refine wp_mono (inlineWhitespace_spec h2.good) ?_
      rintro ⟨⟩ s3 h3
      have e3 := h3.idx
      have n0 := g.len
      have n3 := h3.good.len
      rw [wp_bind]
      refine wp_mono (mappingValue_spec ha (by omega) h3.good (Or.inl (room2.fwd h2.good h3.fwd)) (by omega) indent) ?_
      rintro ⟨⟩ s4 h4
      have l4 := h4.le
      rw [wp_pure, if_pos rfl]
      exact ⟨A, rfl, h4.after (h1.fwd.trans (h2.fwd.trans h3.fwd)), by omega⟩
    | cons c w =>
      refine y_emit h1.good (by omega) (by rw [r1]; simp) (by simp) ?_ fun s2 h2 => ?_
      · rw [r1]
        exact .space hw ht
      have r2 : s2.rem = w ++ c!":" :: t := by rw [h2.rem, r1]; simp
      have e2 := h2.idx
      have room2 : Room (A + 1) s2 := hr.fwd g (h1.fwd.trans h2.fwd)
      rw [wp_bind]
      refine wp_mono (inlineWhitespace_spec h2.good) ?_
      rintro ⟨⟩ s3 h3
      have hlen : Ascii.length_if s2.rem isWs = w.length := by
        rw [r2]
        have h1' := length_if_zero_longest (w ++ c!":" :: t) isWs (isWs · = true) (by simp)
        have h2' := (length_if_le (w ++ c!":" :: t) isWs 0 (by omega)).2
        generalize Ascii.length_if (w ++ c!":" :: t) isWs = n at h1' h2'
        rcases Nat.lt_trichotomy n w.length with h | h | h
        · have := h1'.2 w[n] (by rw [List.getElem?_append_left h]; simp)
          exact absurd (isWs_blank.2 (hw _ (by simp))) this
        · exact h
        · have := h1'.1 c!":" (by
            rw [List.mem_take_iff_getElem]
            exact ⟨w.length, by simp; omega, by simp⟩)
          exact absurd this (by decide)
      rw [hlen] at h3
      have r3 : s3.rem = c!":" :: t := by rw [h3.rem, r2]; simp
      have e3 := h3.idx
      have n0 := g.len
      have n3 := h3.good.len
      rw [wp_bind]
      refine wp_mono (mappingValue_spec ha (by omega) h3.good
        (Or.inr ⟨room2.fwd h2.good h3.fwd, t, r3, ht⟩) (by omega) indent) ?_
      rintro ⟨⟩ s4 h4
      have l4 := h4.le
      rw [wp_pure, if_pos rfl]
      exact ⟨A, rfl, h4.after (h1.fwd.trans (h2.fwd.trans h3.fwd)), by omega⟩

theorem compact_spec (ha : AgainB env again fuel) (hB : B ≤ 64) (g : Ok env s) (hr : Room B s)
    (hf : s.rem.length < fuel) (indent : Nat) : wp (compact again indent) (fun _ s' => Goes env B s s') env s := by
  unfold compact
  rw [wp_bind, wp_rem]
  split
  · rw [wp_pure]
    exact .of_fwd g hr (.refl g)
  · split
    · refine wp_mono (ha B indent 1 s hB g hr hf) ?_
      exact fun _ _ h => h.1
    · rw [wp_bind]
      refine wp_mono (mappingKey_spec ha hB g hr (by omega) indent) ?_
      rintro (_ | _) s1 h1
      · simp at h1
        subst h1
        simp only [Bool.false_eq_true, if_false]
        refine wp_mono (flowNode_spec g indent false) ?_
        exact fun _ _ h => .of_fwd g hr h.1
      · simp only [if_true]
        rw [if_pos rfl] at h1
        obtain ⟨A, rfl, h1, _⟩ := h1
        rw [wp_pure]
        exact ⟨h1.good, h1.le, by have := h1.room; unfold Room at *; omega⟩

theorem explicitValue_spec (ha : AgainB env again fuel) (hB : B ≤ 64) (g : Ok env s) (hr : Room B s)
    (hf : s.rem.length < fuel) (indent : Nat) :
    wp (explicitValue again indent) (fun _ s' => Goes env B s s') env s := by
  unfold explicitValue
  rw [wp_bind]
  refine wp_mono (skipLine_spec g) ?_
  rintro ⟨⟩ s1 ⟨f1, _⟩
  rw [wp_bind]
  refine wp_mono (whitespace_spec f1.good) ?_
  rintro ⟨⟩ s2 ⟨f2, _⟩
  rw [wp_bind, wp_rem]
  have l1 := f1.le
  have l2 := f2.le
  have n0 := g.len
  split
  · rename_i h
    have hs := startsWith_facts h 2 rfl
    rw [wp_bind]
    refine y_emit f2.good (by omega) (by omega) (by simp) (.punctuation ?_) fun s3 h3 => ?_
    · have := congrArg (List.take 1) hs.2
      rw [List.take_take] at this
      simp at this ⊢
      simp [this]
    rw [wp_bind]
    refine wp_mono (whitespace_spec h3.good) ?_
    rintro ⟨⟩ s4 ⟨f4, _⟩
    have e3 := h3.idx
    have l4 := f4.le
    have n4 := f4.good.len
    have f : Fwd env s s4 := f1.trans (f2.trans (h3.fwd.trans f4))
    rw [wp_bind, wp_rem]
    split
    · refine wp_mono (ha B indent 0 s4 hB f4.good (hr.fwd g f) (by omega)) ?_
      exact fun _ s5 h5 => h5.1.after f
    · rw [wp_bind]
      refine wp_mono (skipLine_spec f4.good) ?_
      rintro ⟨⟩ s5 ⟨f5, _⟩
      have l5 := f5.le
      have n5 := f5.good.len
      refine wp_mono (ha B indent 0 s5 hB f5.good (hr.fwd g (f.trans f5)) (by omega)) ?_
      exact fun _ s6 h6 => h6.1.after (f.trans f5)
  · rw [wp_pure]
    exact .of_fwd g hr (f1.trans f2)

theorem explicitKey_spec (ha : AgainB env again fuel) (hB : B ≤ 64) (g : Ok env s) (hr : Room B s)
    (hf : s.rem.length < fuel + 1) (h : startsWith s.rem b!"?" = true) (indent : Nat) :
    wp (explicitKey again indent) (fun _ s' => Goes env B s s' ∧ s.idx < s'.idx) env s := by
  unfold explicitKey
  rw [wp_bind]
  have hs := startsWith_facts h 1 rfl
  refine y_emit g (by omega) hs.1 (by simp) (.punctuation (by rw [hs.2]; simp)) fun s1 h1 => ?_
  rw [wp_bind]
  refine wp_mono (whitespace_spec h1.good) ?_
  rintro ⟨⟩ s2 ⟨f2, _⟩
  have f : Fwd env s s2 := h1.fwd.trans f2
  have e1 := h1.idx
  have l2 := f2.le
  have n0 := g.len
  have n2 := f2.good.len
  rw [wp_bind, wp_rem]
  split
  · rw [wp_bind]
    refine wp_mono (flowNode_spec f2.good (indent + 1) false) ?_
    rintro ⟨⟩ s3 ⟨f3, _⟩
    have l3 := f3.le
    have n3 := f3.good.len
    refine wp_mono (explicitValue_spec ha hB f3.good (hr.fwd g (f.trans f3)) (by omega) indent) ?_
    rintro ⟨⟩ s4 h4
    have l4 := h4.le
    exact ⟨h4.after (f.trans f3), by omega⟩
  · refine wp_mono (explicitValue_spec ha hB f2.good (hr.fwd g f) (by omega) indent) ?_
    rintro ⟨⟩ s4 h4
    have l4 := h4.le
    exact ⟨h4.after f, by omega⟩

theorem push_spec (g : Ok env s) (hB : B + 1 ≤ 64) (hr : Room B s) (n : Nat) :
    wp (push n) (fun _ s' => Goes env (B + 1) s s' ∧ s'.idx = s.idx ∧ s'.rem = s.rem) env s := by
  unfold push
  rw [wp_bind, wp_get, wp_bind, wp_hassert]
  unfold Room at hr
  refine ⟨by simp; omega, ?_⟩
  refine wp_step_modify g ?_
  intro s' g' _ e i x
  refine ⟨⟨g', by omega, ?_⟩, i, e⟩
  unfold Room
  rw [x, e]
  simp
  omega

theorem entryEnd_spec (ha : AgainB env again fuel) (hB : B + 1 ≤ 64) (g : Ok env s) (hr : Room B s)
    (hf : s.rem.length < fuel) (indent : Nat) : wp (entryEnd again indent) (fun _ s' => Goes env (B + 1) s s') env s := by
  unfold entryEnd
  rw [wp_bind, wp_rem]
  split
  · rw [wp_bind]
    refine wp_mono (skipLine_spec g) ?_
    rintro ⟨⟩ s1 ⟨f1, _⟩
    rw [wp_bind]
    refine wp_mono (push_spec f1.good hB (hr.fwd g f1) indent) ?_
    rintro ⟨⟩ s2 ⟨h2, e2, r2⟩
    have l1 := f1.le
    have n0 := g.len
    have n2 := h2.good.len
    refine wp_mono (ha (B + 1) indent 0 s2 hB h2.good h2.room (by omega)) ?_
    exact fun _ s3 h3 => (h2.trans h3.1).after f1
  · rw [wp_bind]
    refine wp_mono (push_spec g hB hr indent) ?_
    rintro ⟨⟩ s2 ⟨h2, e2, r2⟩
    refine wp_mono (ha (B + 1) indent 0 s2 hB h2.good h2.room (by rw [r2]; exact hf)) ?_
    exact fun _ s3 h3 => h2.trans h3.1

theorem sequenceEntry_spec (ha : AgainB env again fuel) (hB : B ≤ 64) (g : Ok env s) (hr : Room B s)
    (hf : s.rem.length < fuel + 1) (h : startsWith s.rem b!"- " = true) (indent : Nat) :
    wp (sequenceEntry again indent) (fun _ s' => Goes env B s s' ∧ s.idx < s'.idx) env s := by
  unfold sequenceEntry
  rw [wp_bind]
  have hs := startsWith_facts h 2 rfl
  obtain ⟨t, ht⟩ := startsWith_iff.1 h
  have hm : marks s.rem = marks (c!" " :: t) + 1 := by rw [ht]; exact marks_dash
  obtain ⟨A, rfl⟩ : ∃ A, B = A + 1 := ⟨B - 1, by unfold Room at hr; omega⟩
  refine y_emit g (by omega) (by omega) (by simp) (.dash hs.2) fun s1 h1 => ?_
  have room1 : Room A s1 := by
    unfold Room at hr ⊢
    have : s1.rem = c!" " :: t := by rw [h1.rem, ht]; rfl
    rw [h1.ext, this]
    omega
  rw [wp_bind]
  refine wp_mono (whitespace_spec h1.good) ?_
  rintro ⟨⟩ s2 ⟨f2, _⟩
  have room2 := room1.fwd h1.good f2
  have f : Fwd env s s2 := h1.fwd.trans f2
  have e1 := h1.idx
  have l2 := f2.le
  have n0 := g.len
  have n2 := f2.good.len
  rw [wp_bind, wp_rem]
  split
  · rw [wp_bind]
    refine wp_mono (compact_spec ha (by omega) f2.good room2 (by omega) _) ?_
    rintro ⟨⟩ s3 h3
    have l3 := h3.le
    have n3 := h3.good.len
    refine wp_mono (entryEnd_spec ha hB h3.good h3.room (by omega) indent) ?_
    rintro ⟨⟩ s4 h4
    have l4 := h4.le
    exact ⟨(h3.trans h4).after f, by omega⟩
  · refine wp_mono (entryEnd_spec ha hB f2.good room2 (by omega) indent) ?_
    rintro ⟨⟩ s4 h4
    have l4 := h4.le
    exact ⟨h4.after f, by omega⟩

theorem isBlockHeader_mark {r : Bytes} (h : isBlockHeader r = true) :
    (startsWith r b!"|" || startsWith r b!">") = true := by
  unfold isBlockHeader at h
  cases r with
  | nil => simp [startsWith] at h
  | cons c t =>
    simp [startsWith] at h ⊢
    grind

theorem blockEntry_spec (ha : AgainB env again fuel) (hB : B ≤ 64) (g : Ok env s) (hr : Room B s)
    (hf : s.rem.length < fuel + 1) (indent : Nat) : wp (blockEntry again indent) (fun r s' => match r with
      | .inl _ => Goes env B s s' ∧ s.idx < s'.idx
      | .inr _ => s' = s ∧ hasValue s.rem = false) env s := by
  unfold blockEntry
  rw [wp_bind, wp_rem]
  split
  · rename_i h
    rw [wp_bind]
    have : startsWith s.rem b!"?" = true := by
      cases hr : s.rem with
      | nil => rw [hr] at h; simp [startsWith] at h
      | cons c t =>
        rw [hr] at h
        simp [startsWith] at h ⊢
        grind
    refine wp_mono (explicitKey_spec ha hB g hr hf this indent) ?_
    intro _ s1 h1
    rw [wp_pure]
    exact h1
  · split
    · rename_i h
      rw [wp_bind]
      refine wp_mono (sequenceEntry_spec ha hB g hr hf h indent) ?_
      intro _ s1 h1
      rw [wp_pure]
      exact h1
    · split
      · rename_i h
        rw [wp_bind]
        refine wp_mono (blockScalar_spec g (isBlockHeader_mark h) indent) ?_
        intro _ s1 h1
        rw [wp_pure]
        exact ⟨.of_fwd g hr h1.1, h1.2⟩
      · rw [wp_bind]
        refine wp_mono (mappingKey_spec ha hB g hr hf indent) ?_
        rintro (_ | _) s1 h1
        · simp at h1
          subst h1
          simp only [Bool.false_eq_true, if_false]
          split
          · rename_i h2
            rw [wp_bind]
            refine wp_mono (flowNode_spec g indent false) ?_
            rintro ⟨⟩ s2 ⟨f2, _⟩
            rw [wp_bind]
            refine wp_mono (skipLine_spec f2.good) ?_
            rintro ⟨⟩ s3 ⟨f3, h3, _⟩
            rw [wp_pure]
            refine ⟨.of_fwd g hr (f2.trans f3), ?_⟩
            have l2 := f2.le
            have l3 := f3.le
            by_cases hlt : s1.idx < s2.idx
            · omega
            · have r2 := f2.same g (by omega)
              have := h3 (by
                rw [r2]
                intro e
                rw [e] at h2
                simp [hasValue] at h2)
              omega
          · rename_i h2
            rw [wp_pure]
            exact ⟨rfl, by simpa using h2⟩
        · simp only [if_true]
          rw [if_pos rfl] at h1
          obtain ⟨A, rfl, h1, h2⟩ := h1
          rw [wp_bind]
          refine wp_mono (push_spec h1.good hB h1.room indent) ?_
          rintro ⟨⟩ s2 ⟨h3, e3, _⟩
          rw [wp_pure]
          exact ⟨h1.trans h3, by omega⟩

theorem blockStep_spec (ha : AgainB env again fuel) (hB : B ≤ 64) (g : Ok env s) (hr : Room B s)
    (hf : s.rem.length < fuel + 1) (indent offset : Nat) : wp (blockStep again indent offset) (fun r s' => match r with
      | .inl _ => Goes env B s s' ∧ s.idx < s'.idx
      | .inr _ => Goes env B s s' ∧ (indent ≤ offset → s'.rem = [] ∨ Marker s'.rem ∨ s.idx < s'.idx)) env s := by
  unfold blockStep
  rw [wp_bind]
  refine wp_mono (skipBlank_spec g) ?_
  rintro ⟨⟩ s1 ⟨f1, h1⟩
  have room1 := hr.fwd g f1
  have l1 := f1.le
  have n0 := g.len
  have n1 := f1.good.len
  rw [wp_bind, wp_rem]
  split
  · rename_i h
    rw [wp_pure]
    exact ⟨.of_fwd g hr f1, fun _ => Or.inl h⟩
  · rename_i hne
    split
    · rename_i h
      rw [wp_pure]
      refine ⟨.of_fwd g hr f1, fun _ => Or.inr (Or.inl ?_)⟩
      simp at h
      exact h.2
    · rename_i hmk
      rw [wp_bind, wp_get]
      split
      · rename_i h
        rw [wp_bind]
        refine wp_step_modify f1.good ?_
        intro s2 g2 _ e2 i2 x2
        rw [wp_pure]
        refine ⟨⟨g2, by omega, ?_⟩, ?_⟩
        · unfold Room at room1 ⊢
          rw [x2, e2]
          have := (List.dropWhile_suffix (l := s1.ext) fun x => decide (currentIndent s1.rem ≤ x)).length_le
          omega
        · intro hle
          simp at h
          omega
      · rw [wp_bind]
        refine wp_mono (consumeIndent_spec f1.good _) ?_
        rintro ⟨⟩ s2 h2
        rw [Nat.min_self] at h2
        have e2 := h2.idx
        have n2 := h2.good.len
        have f := f1.trans h2.fwd
        refine wp_mono (blockEntry_spec ha hB h2.good (hr.fwd g f) (by omega) _) ?_
        rintro (⟨⟩ | ⟨⟩) s3 h3
        · exact ⟨h3.1.after f, by have := h3.2; omega⟩
        · obtain ⟨rfl, hv⟩ := h3
          refine ⟨.of_fwd g hr f, fun _ => ?_⟩
          by_cases hz : currentIndent s1.rem = 0
          · exfalso
            rcases h1 with h1 | h1
            · exact hne h1
            · rw [hz] at h2 h1
              have r2 : s3.rem = s1.rem := by rw [h2.rem]; simp
              rw [r2] at hv
              unfold hasValue at hv
              simp [hne, h1.1] at hv
              simp at h1
              grind
          · right; right
            omega

theorem blockNodeLoop_spec : ∀ fuel, AgainB env (blockNodeLoop fuel) fuel
  | 0 => fun _ _ _ _ _ _ _ h => absurd h (by omega)
  | fuel + 1 => fun B indent offset s hB g hr hf => by
    unfold blockNodeLoop
    rw [wp_bind, wp_rem]
    refine wp_loop (fun _ s1 => Goes env B s s1) (fun _ s1 => s1.rem.length) ?_ _ () s
      (.of_fwd g hr (.refl g)) (by omega)
    rintro ⟨⟩ s1 h1
    have l1 := h1.le
    have n0 := g.len
    have n1 := h1.good.len
    refine wp_mono (blockStep_spec (blockNodeLoop_spec fuel) hB h1.good h1.room (by omega) indent offset) ?_
    rintro (⟨⟩ | ⟨⟩) s2 h2
    · refine ⟨h1.trans h2.1, ?_⟩
      have := h2.1.good.len
      have := h2.2
      omega
    · refine ⟨h1.trans h2.1, ?_⟩
      intro hle
      rcases h2.2 hle with h | h | h
      · exact Or.inl h
      · exact Or.inr (Or.inl h)
      · exact Or.inr (Or.inr (by omega))

theorem blockNode_spec (hB : B ≤ 64) (g : Ok env s) (hr : Room B s) (indent offset : Nat) :
    wp (blockNode indent offset) (fun _ s' => Goes env B s s' ∧
      (indent ≤ offset → s'.rem = [] ∨ Marker s'.rem ∨ s.idx < s'.idx)) env s := by
  unfold blockNode
  rw [wp_bind, wp_rem]
  exact blockNodeLoop_spec _ B indent offset s hB g hr (by omega)

/-! ## Documents -/

theorem parameterStep_spec (g : Ok env s) (i : InDirective (pre env s)) : wp parameterStep (fun r s' => match r with
    | .inl _ => Fwd env s s' ∧ s.idx < s'.idx ∧ InDirective (pre env s')
    | .inr _ => Fwd env s s') env s := by
  have more : ∀ c t, s.rem = c :: t → matchLineBreak s.rem = 0 → ∀ s', Step env s 1 s' →
      Fwd env s s' ∧ s.idx < s'.idx ∧ InDirective (pre env s') := by
    intro c t e hb s' h
    refine ⟨h.fwd, by have := h.idx; omega, ?_⟩
    obtain ⟨u, v, e2, hv⟩ := i
    refine ⟨u, v ++ [c], ?_, ?_⟩
    · rw [h.pre, e2, e]
      simp
    · intro d hd
      simp at hd
      rcases hd with hd | rfl
      · exact hv d hd
      · exact matchLineBreak_eq.1 hb d (by rw [e]; rfl)
  unfold parameterStep
  rw [wp_bind, wp_rem]
  split
  · rw [wp_pure]
    exact .refl g
  · rename_i c hc
    obtain ⟨t, e⟩ : ∃ t, s.rem = c :: t := by
      cases hs : s.rem with
      | nil => rw [hs] at hc; simp at hc
      | cons d t => rw [hs] at hc; simp at hc; exact ⟨t, by rw [hc]⟩
    split
    · rw [wp_pure]
      exact .refl g
    · rename_i hb
      have hb : matchLineBreak s.rem = 0 := by omega
      split
      · rename_i hw
        rw [wp_bind]
        refine y_adv g (by rw [e]; simp) (.white ?_) fun s' h => ?_
        · rw [e]
          intro d hd
          simp at hd
          subst hd
          exact isWs_white hw
        · rw [wp_pure]
          exact more c t e hb s' h
      · rename_i hw
        rw [wp_bind]
        refine y_emit g (by omega) (by rw [e]; simp) (by simp) (.parameter (c := c) i (by rw [e]; rfl) ⟨?_, ?_⟩) fun s' h => ?_
        · exact matchLineBreak_eq.1 hb c (by rw [e]; rfl)
        · rw [← isWs_blank]
          exact hw
        · rw [wp_pure]
          exact more c t e hb s' h

theorem directiveLine_spec (g : Ok env s) (h : startsWith s.rem b!"%" = true) :
    wp directiveLine (fun _ s' => Fwd env s s' ∧ s.idx < s'.idx) env s := by
  unfold directiveLine
  rw [wp_bind, wp_rem, wp_bind, wp_hassert]
  refine ⟨h, ?_⟩
  have hs := startsWith_facts h 1 rfl
  rw [wp_bind]
  refine y_emit g (by omega) hs.1 (by simp) (.directiveMark hs.2) fun s1 h1 => ?_
  have p1 : pre env s1 = pre env s ++ b!"%" := by rw [h1.pre, hs.2]
  rw [wp_bind, wp_rem, wp_bind]
  have hn := directiveName_longest s1.rem
  refine y_emitIf h1.good hn.2 (by simp) (fun _ => by rw [p1]; exact .directiveName hn.1) fun s2 h2 => ?_
  rw [wp_bind, wp_rem, wp_bind]
  have e1 := h1.idx
  have e2 := h2.idx
  refine y_loop (fun s3 => InDirective (pre env s3)) ?_ h2.good ?_ (by omega)
  · intro s3 f3 i3
    refine wp_mono (parameterStep_spec f3.good i3) ?_
    rintro (⟨⟩ | ⟨⟩) s4 h4
    · exact h4
    · have h4 : Fwd env s3 s4 := h4
      refine wp_mono (skipLine_spec h4.good) ?_
      rintro ⟨⟩ s5 ⟨f5, _⟩
      have l3 := f3.le
      have l4 := h4.le
      have l5 := f5.le
      exact ⟨h1.fwd.trans (h2.fwd.trans (f3.trans (h4.trans f5))), by omega⟩
  · refine ⟨pre env s, s1.rem.take (directiveName s1.rem), ?_, fun c hc => (hn.1.1 c hc).1⟩
    rw [h2.pre, p1]

theorem directives_spec (g : Ok env s) : wp directives (fun _ s' => Fwd env s s') env s := by
  unfold directives
  rw [wp_bind, wp_rem]
  refine y_loop (fun _ => True) ?_ g trivial (by omega)
  intro s1 f1 _
  unfold directiveStep
  rw [wp_bind]
  refine wp_mono (whitespace_spec f1.good) ?_
  rintro ⟨⟩ s2 ⟨f2, _⟩
  rw [wp_bind, wp_rem]
  split
  · rename_i h
    rw [wp_bind]
    refine wp_mono (directiveLine_spec f2.good h) ?_
    rintro ⟨⟩ s3 ⟨f3, l3⟩
    rw [wp_pure]
    have l2 := f2.le
    exact ⟨f2.trans f3, by omega, trivial⟩
  · rw [wp_pure]
    exact f1.trans f2

theorem marker_spec (g : Ok env s) (h : Marker s.rem) :
    wp marker (fun _ s' => Fwd env s s' ∧ s.idx < s'.idx) env s := by
  unfold marker
  rw [wp_bind]
  have hs : 3 ≤ s.rem.length ∧ s.rem.take 3 ∈ [b!"---", b!"..."] := by
    rcases h with h | h
    · have hs := startsWith_facts h 3 rfl
      exact ⟨hs.1, by rw [hs.2]; simp⟩
    · have hs := startsWith_facts h 3 rfl
      exact ⟨hs.1, by rw [hs.2]; simp⟩
  refine y_emit g (by omega) hs.1 (by simp) (.marker hs.2) fun s1 h1 => ?_
  refine wp_mono (skipLine_spec h1.good) ?_
  rintro ⟨⟩ s2 ⟨f2, _⟩
  have e1 := h1.idx
  have l2 := f2.le
  exact ⟨h1.fwd.trans f2, by omega⟩

theorem documentStart_spec (g : Ok env s) : wp documentStart (fun _ s' => Fwd env s s') env s := by
  unfold documentStart
  rw [wp_bind, wp_rem]
  split
  · rename_i h
    simp only [Bool.and_eq_true] at h
    rw [wp_bind]
    refine wp_mono (marker_spec g (Or.inl h.2)) ?_
    rintro ⟨⟩ s1 ⟨f1, _⟩
    refine wp_mono (whitespace_spec f1.good) ?_
    rintro ⟨⟩ s2 ⟨f2, _⟩
    exact f1.trans f2
  · rw [wp_pure]
    exact .refl g

theorem documentDirectives_spec (g : Ok env s) (n : Nat) :
    wp (documentDirectives n) (fun _ s' => Fwd env s s') env s := by
  unfold documentDirectives
  rw [wp_bind, wp_rem]
  split
  · rw [wp_bind]
    refine wp_mono (directives_spec g) ?_
    rintro ⟨⟩ s1 f1
    rw [wp_bind]
    refine wp_mono (whitespace_spec f1.good) ?_
    rintro ⟨⟩ s2 ⟨f2, _⟩
    rw [wp_bind, wp_rem]
    split
    · rename_i h
      rw [wp_bind]
      refine wp_mono (marker_spec f2.good (Or.inl h)) ?_
      rintro ⟨⟩ s3 ⟨f3, _⟩
      refine wp_mono (whitespace_spec f3.good) ?_
      rintro ⟨⟩ s4 ⟨f4, _⟩
      exact f1.trans (f2.trans (f3.trans f4))
    · rw [wp_pure]
      exact f1.trans f2
  · rw [wp_pure]
    exact .refl g

/-- What is known after a document: everything is read, there is a marker, or something was read. -/
structure Moves (env : HEnv) (s s' : HS St) : Prop where
  good : Ok env s'
  le : s.idx ≤ s'.idx
  moved : s'.rem = [] ∨ Marker s'.rem ∨ s.idx < s'.idx

theorem document_spec (g : Ok env s) (hm : marks env.src ≤ 64) :
    wp document (fun _ s' => Moves env s s') env s := by
  unfold document
  rw [wp_bind]
  refine wp_step_modify g ?_
  intro s0 g0 _ e0 i0 x0
  rw [wp_bind]
  refine wp_mono (whitespace_spec g0) ?_
  rintro ⟨⟩ s1 ⟨f1, _⟩
  have l1 := f1.le
  rw [wp_bind, wp_eof]
  split
  · rename_i h
    rw [wp_pure]
    exact ⟨f1.good, by omega, Or.inl (by simpa using h)⟩
  · rw [wp_bind, wp_rem, wp_bind]
    refine wp_mono (documentStart_spec f1.good) ?_
    rintro ⟨⟩ s2 f2
    have l2 := f2.le
    rw [wp_bind, wp_eof]
    split
    · rename_i h
      rw [wp_pure]
      exact ⟨f2.good, by omega, Or.inl (by simpa using h)⟩
    · rw [wp_bind]
      refine wp_mono (documentDirectives_spec f2.good _) ?_
      rintro ⟨⟩ s3 f3
      have l3 := f3.le
      rw [wp_bind, wp_eof]
      split
      · rename_i h
        rw [wp_pure]
        exact ⟨f3.good, by omega, Or.inl (by simpa using h)⟩
      · have room : Room 64 s3 := by
          unfold Room
          rw [f3.ext, f2.ext, f1.ext, x0, f3.good.rem]
          have := marks_drop s3.idx env.src
          simp
          omega
        refine wp_mono (blockNode_spec (by omega) f3.good room 0 0) ?_
        rintro ⟨⟩ s4 ⟨h4, h5⟩
        have l4 := h4.le
        refine ⟨h4.good, by omega, ?_⟩
        rcases h5 (by omega) with h | h | h
        · exact Or.inl h
        · exact Or.inr (Or.inl h)
        · exact Or.inr (Or.inr (by omega))

theorem marker_clean {r : Bytes} (h : Marker r) : Clean r ∧ currentIndent r = 0 := by
  have h1 : ∃ c t, r = c :: t ∧ c ∉ b!" \t\r\n#" := by
    rcases h with h | h
    · obtain ⟨t, e⟩ := startsWith_iff.1 h
      exact ⟨_, _, e, by simp⟩
    · obtain ⟨t, e⟩ := startsWith_iff.1 h
      exact ⟨_, _, e, by simp⟩
  obtain ⟨c, t, rfl, hc⟩ := h1
  refine ⟨?_, currentIndent_solid ?_⟩
  · intro d hd
    simp at hd
    subst hd
    exact hc
  · rintro rfl
    simp at hc

theorem documentSuffix_spec (g : Ok env s) :
    wp documentSuffix (fun _ s' => Fwd env s s' ∧ (Marker s.rem → s.idx < s'.idx)) env s := by
  unfold documentSuffix
  rw [wp_bind, wp_rem]
  refine y_loop (fun s1 => s1.idx = s.idx ∨ s.idx < s1.idx) ?_ g (Or.inl rfl) (by omega)
  intro s1 f1 i1
  unfold suffixStep
  rw [wp_bind]
  refine wp_mono (whitespace_spec f1.good) ?_
  rintro ⟨⟩ s2 ⟨f2, _, h2⟩
  have l1 := f1.le
  have l2 := f2.le
  rw [wp_bind, wp_rem]
  split
  · rename_i h
    simp only [Bool.and_eq_true] at h
    rw [wp_bind]
    refine wp_mono (marker_spec f2.good (Or.inr h.1)) ?_
    rintro ⟨⟩ s3 ⟨f3, l3⟩
    rw [wp_pure]
    exact ⟨f2.trans f3, by omega, Or.inr (by omega)⟩
  · rename_i hn1
    split
    · rename_i h
      simp only [Bool.and_eq_true] at h
      rw [wp_bind]
      refine wp_mono (marker_spec f2.good (Or.inl h.1)) ?_
      rintro ⟨⟩ s3 ⟨f3, l3⟩
      rw [wp_pure]
      exact ⟨f1.trans (f2.trans f3), fun _ => by omega⟩
    · rename_i hn2
      rw [wp_pure]
      refine ⟨f1.trans f2, fun hm => ?_⟩
      rcases i1 with i1 | i1
      · exfalso
        have r1 := f1.same g i1
        have hm1 := marker_clean hm
        have r2 := f2.same f1.good (h2 (by rw [r1]; exact hm1.1))
        rw [r2, r1] at hn1 hn2
        rcases hm with hm | hm
        · simp [hm, hm1.2] at hn2
        · simp [hm, hm1.2] at hn1
      · omega

theorem documentPrefix_spec (g : Ok env s) : wp documentPrefix (fun _ s' => Fwd env s s') env s := by
  unfold documentPrefix
  rw [wp_bind, wp_rem]
  refine y_loop (fun _ => True) ?_ g trivial (by omega)
  intro s1 f1 _
  unfold prefixStep
  rw [wp_bind]
  refine wp_mono (whitespace_spec f1.good) ?_
  rintro ⟨⟩ s2 ⟨f2, hc, _⟩
  rw [wp_bind, wp_eof]
  split
  · rw [wp_pure]
    exact f1.trans f2
  · rename_i h
    rw [wp_bind]
    refine wp_mono (expectCommentOrBlank_spec f2.good hc (by simpa using h)) ?_
    rintro b s3 ⟨rfl, f3⟩
    rw [if_neg (by simp), wp_pure]
    exact f1.trans (f2.trans f3)

theorem step_spec (g : Ok env s) (hm : marks env.src ≤ 64) : wp step (fun r s' => match r with
    | .inl _ => Ok env s' ∧ s.idx < s'.idx
    | .inr _ => Ok env s' ∧ s'.rem = []) env s := by
  unfold step
  rw [wp_bind, wp_eof]
  split
  · rename_i h
    rw [wp_pure]
    exact ⟨g, by simpa using h⟩
  · rw [wp_bind]
    refine wp_mono (document_spec g hm) ?_
    rintro ⟨⟩ s1 h1
    have l1 := h1.le
    rw [wp_bind, wp_eof]
    split
    · rename_i h
      rw [wp_pure]
      exact ⟨h1.good, by simpa using h⟩
    · rename_i h
      rw [wp_bind]
      refine wp_mono (documentSuffix_spec h1.good) ?_
      rintro ⟨⟩ s2 ⟨f2, h2⟩
      have l2 := f2.le
      rw [wp_pure]
      refine ⟨f2.good, ?_⟩
      rcases h1.moved with h3 | h3 | h3
      · exact absurd h3 (by simpa using h)
      · have := h2 h3
        omega
      · omega

/-- C54.  YAML is highlighted completely, in debug builds and others, and every token is what the
specification says, as is the text between the tokens, if there are not more than 64 places where a key or a
list entry may be. -/
theorem C54_yaml_tokens (debug : Bool) (opts : Opts) (src : Bytes) (hm : marks src ≤ 64) :
    ∃ es, highlight debug opts src = .ok (true, es) ∧
      Tiles (rules src) src src.length (es.map Emit.token) := by
  obtain ⟨good, es, h1, rfl, h2⟩ := run_of_wp (m := main) (ext := []) (R := rules src) (debug := debug)
    (opts := opts) (src := src) (P := fun b => b = true) (by
      intro s g hr hi _
      unfold main
      rw [wp_bind]
      refine wp_mono (documentPrefix_spec (env := ⟨debug, opts.seen, src⟩) g) ?_
      rintro ⟨⟩ s1 f1
      rw [wp_bind, wp_rem, wp_bind]
      refine wp_loop (fun _ s2 => Ok ⟨debug, opts.seen, src⟩ s2) (fun _ s2 => s2.rem.length) ?_ _ () s1 f1.good (by omega)
      rintro ⟨⟩ s2 g2
      refine wp_mono (step_spec g2 hm) ?_
      rintro (⟨⟩ | ⟨⟩) s3 h3
      · refine ⟨h3.1, ?_⟩
        have := h3.1.len
        have := g2.len
        have := h3.2
        omega
      · rw [wp_pure]
        exact ⟨h3.1, h3.2, rfl⟩)
  exact ⟨es, h1, h2⟩

/-- What is highlighted. -/
def tokensOf (src : Bytes) : Except Fault (List Token) :=
  (highlight true {} src).map fun r => r.2.map Emit.token

instance : DecidableEq (Except Fault (List Token)) := fun a b =>
  match a, b with
  | .ok x, .ok y => if h : x = y then isTrue (by rw [h]) else isFalse (by simpa using h)
  | .error x, .error y => if h : x = y then isTrue (by rw [h]) else isFalse (by simpa using h)
  | .ok _, .error _ => isFalse (by simp)
  | .error _, .ok _ => isFalse (by simp)


example : marks b!"a: [1, no]\nb:\n  - &x \"q\\n\" # c\n  - !!int 0x1F\nt: |-\n  text\n" = 5 := by decide +kernel

example : tokensOf b!"a: [1, no]\nb:\n  - &x \"q\\n\" # c\n  - !!int 0x1F\nt: |-\n  text\n" = .ok
    [⟨0, 1, .markup_attr⟩, ⟨1, 1, .symbol_punc⟩, ⟨3, 1, .symbol_square⟩, ⟨4, 1, .number⟩, ⟨5, 1, .symbol_punc⟩,
      ⟨7, 2, .bool_⟩, ⟨9, 1, .symbol_square⟩, ⟨11, 1, .markup_attr⟩, ⟨12, 1, .symbol_punc⟩, ⟨16, 1, .symbol_punc⟩,
      ⟨18, 1, .name_attr_delim⟩, ⟨19, 1, .name⟩, ⟨21, 1, .string_delim⟩, ⟨22, 1, .string⟩, ⟨23, 2, .string_escape⟩,
      ⟨25, 1, .string_delim⟩, ⟨27, 1, .comment_delim⟩, ⟨28, 2, .comment⟩, ⟨33, 1, .symbol_punc⟩,
      ⟨35, 2, .name_attr_delim⟩, ⟨37, 1, .name_attr⟩, ⟨38, 1, .name_attr⟩, ⟨39, 1, .name_attr⟩, ⟨41, 4, .number⟩,
      ⟨46, 1, .markup_attr⟩, ⟨47, 1, .symbol_punc⟩, ⟨49, 1, .string_delim⟩, ⟨50, 1, .number_decor⟩,
      ⟨54, 4, .string⟩] := by decide +kernel

/-- C54 needs its hypothesis.  The highlighter stops with a failed assertion, in debug builds and others, for a text
that consists of 65 keys in one block. -/
theorem C54_many_keys (debug : Bool) :
    marks (List.replicate 65 b!"a:\n").flatten = 65 ∧
      highlight debug {} (List.replicate 65 b!"a:\n").flatten = .error .assert := by
  cases debug <;> decide +kernel

/-- C54.  Differences from YAML.
Whitespace before the colon of a key is highlighted in the place of the colon, and the colon is part of the value.
A bracket before a key is part of the key, and the closing bracket is not highlighted.
Words with a meaning are found at the beginning of other text, and a number ends where there is none.
An entry of a list with nothing after the dash is a number.
The line after a block scalar that has a tag is not highlighted.
A document marker is found in the middle of a line.
A short escape sequence takes the closing quotation mark. -/
theorem C54_differences :
    tokensOf b!"key : value\n" = .ok [⟨0, 3, .markup_attr⟩, ⟨3, 1, .symbol_punc⟩, ⟨4, 7, .string⟩] ∧
    tokensOf b!"[a: b]\n" = .ok [⟨0, 2, .markup_attr⟩, ⟨2, 1, .symbol_punc⟩, ⟨4, 1, .string⟩] ∧
    tokensOf b!"{\"a\": 1}\n" = .ok [⟨0, 4, .markup_attr⟩, ⟨4, 1, .symbol_punc⟩, ⟨6, 1, .number⟩] ∧
    tokensOf b!"no-reply" = .ok [⟨0, 2, .bool_⟩] ∧
    tokensOf b!"no thanks" = .ok [⟨0, 2, .bool_⟩] ∧
    tokensOf b!"~foo" = .ok [⟨0, 1, .null⟩] ∧
    tokensOf b!"-\n" = .ok [⟨0, 1, .number⟩] ∧
    tokensOf b!"-e5" = .ok [⟨0, 3, .number⟩] ∧
    tokensOf b!"k: !t |\n  x\nz: 1\n" = .ok [⟨0, 1, .markup_attr⟩, ⟨1, 1, .symbol_punc⟩, ⟨3, 1, .name_attr_delim⟩,
      ⟨4, 1, .name_attr⟩, ⟨6, 1, .string_delim⟩, ⟨10, 1, .string⟩] ∧
    tokensOf b!"- \"a\"--- b" = .ok [⟨0, 1, .symbol_punc⟩, ⟨2, 1, .string_delim⟩, ⟨3, 1, .string⟩,
      ⟨4, 1, .string_delim⟩, ⟨5, 3, .symbol_punc⟩] ∧
    tokensOf b!"\"\\x1\" b" = .ok [⟨0, 1, .string_delim⟩, ⟨1, 4, .error⟩, ⟨5, 2, .string⟩] := by
  decide +kernel

/-- C31 does not hold for YAML: a tag is highlighted byte by byte, so that a character is split. -/
theorem C31_yaml_splits : IsUtf8 [0x21, 0xC3, 0xA9] ∧
    tokensOf [0x21, 0xC3, 0xA9] = .ok [⟨0, 1, .name_attr_delim⟩, ⟨1, 1, .name_attr⟩, ⟨2, 1, .name_attr⟩] ∧
    ¬ IsUtf8 (([0x21, 0xC3, 0xA9].drop 1).take 1) := by
  exact ⟨⟨[0x21, 0xE9], by simp [IsScalar], by decide +kernel⟩, by decide +kernel, not_isUtf8_one (by decide)⟩

end Yaml
end Ulight
