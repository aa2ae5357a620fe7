import Verif.Hl.Whole
import Verif.Props.Lang.MarkdownMatch

/-!
# Markdown: what every token is (C53)
-/

namespace Ulight

open Spec

namespace Markdown

open Spec.Markdown

variable {env : HEnv} {s : HS St}

/-! ## Lines -/

theorem lineOf_append {p w : Bytes} (h : OneLine w) : lineOf (p ++ w) = lineOf p ++ w := by
  unfold lineOf
  rw [List.reverse_append, List.takeWhile_append_of_pos]
  · simp
  · intro c hc
    have := h c (by simpa using hc)
    simpa [InLine] using this

theorem lineOf_end {p : Bytes} {e : Bytes} (h : Terminator e) : lineOf (p ++ e) = [] := by
  unfold Terminator at h
  simp at h
  rcases h with rfl | rfl | rfl <;> simp [lineOf]

theorem OneLine.append {v w : Bytes} (h : OneLine v) (h' : OneLine w) : OneLine (v ++ w) := by
  intro c hc
  rcases List.mem_append.1 hc with hc | hc
  · exact h c hc
  · exact h' c hc

theorem OneLine.left {v w : Bytes} (h : OneLine (v ++ w)) : OneLine v :=
  fun c hc => h c (List.mem_append_left _ hc)

theorem OneLine.right {v w : Bytes} (h : OneLine (v ++ w)) : OneLine w :=
  fun c hc => h c (List.mem_append_right _ hc)

theorem OneLine.spaces (k : Nat) : OneLine (spaces k) := by
  intro c hc
  unfold Spec.Markdown.spaces at hc
  rw [List.mem_replicate] at hc
  rw [hc.2]
  unfold InLine; decide

theorem oneLine_replicate {n : Nat} {c : UInt8} (h : InLine c) : OneLine (List.replicate n c) := by
  intro d hd
  rw [List.mem_replicate] at hd
  rw [hd.2]
  exact h

/-- A comment begins in the last line. -/
def Opened (p : Bytes) : Prop := ∃ u v, p = u ++ b!"<!--" ++ v ∧ OneLine v

theorem Opened.append {p w : Bytes} (h : Opened p) (hw : OneLine w) : Opened (p ++ w) := by
  obtain ⟨u, v, rfl, hv⟩ := h
  exact ⟨u, v ++ w, by simp, OneLine.append hv hw⟩

theorem InHeading.append {p w : Bytes} (h : InHeading p) (hw : OneLine w) : InHeading (p ++ w) := by
  obtain ⟨q, k, n, c, v, h1, h2, h3, h4, h5, h6⟩ := h
  exact ⟨q, k, n, c, v ++ w, h1, h2, h3, h4, h5, by rw [lineOf_append hw, h6]; simp⟩

/-! ## States -/

/-- The state after the text `p` and before the text `r`. -/
structure At (env : HEnv) (s : HS St) (p r : Bytes) : Prop where
  good : Good (rules env.src) env s
  before : env.src.take s.idx = p
  rem : s.rem = r

theorem At.src {p r : Bytes} (a : At env s p r) : env.src = p ++ r := by
  rw [← a.before, ← a.rem, a.good.rem, List.take_append_drop]

theorem At.len {p r : Bytes} (a : At env s p r) : p.length = s.idx := by
  rw [← a.before, List.length_take]
  have := a.good.le
  omega

theorem At.tok {p r : Bytes} (a : At env s p r) {n : Nat} {ty : HT} (h : Tok p r n ty) :
    (rules env.src).tok s.rem n ty := by
  show Tok (env.src.take (env.src.length - s.rem.length)) s.rem n ty
  have := a.good.len
  rw [show env.src.length - s.rem.length = s.idx by omega, a.before, a.rem]
  exact h

theorem At.gap {p r : Bytes} (a : At env s p r) {n : Nat} (h : Gap p r n) :
    (rules env.src).gap s.rem n := by
  show Gap (env.src.take (env.src.length - s.rem.length)) s.rem n
  have := a.good.len
  rw [show env.src.length - s.rem.length = s.idx by omega, a.before, a.rem]
  exact h

theorem At.next {s' : HS St} {p w r : Bytes} (a : At env s p (w ++ r)) (g : Good (rules env.src) env s')
    (hr : s'.rem = s.rem.drop w.length) (hi : s'.idx = s.idx + w.length) : At env s' (p ++ w) r := by
  refine ⟨g, ?_, by rw [hr, a.rem, List.drop_left]⟩
  rw [hi, a.src, ← a.len, ← List.append_assoc, show p.length + w.length = (p ++ w).length by simp, List.take_left]

theorem at_emit {n : Nat} {ty : HT} {p w r : Bytes} {Q : Unit → HS St → Prop} (a : At env s p (w ++ r))
    (hn : n = w.length) (hw : w ≠ []) (ht : ty ≠ .none) (h : Tok p (w ++ r) n ty)
    (k : ∀ s', At env s' (p ++ w) r → s'.ext = s.ext → Q () s') : wp (HM.emitAdv n ty) Q env s := by
  subst hn
  refine wp_step_emitAdv a.good (List.length_pos_iff.2 hw) (by rw [a.rem]; simp) ht (a.tok h) ?_
  intro s' g _ e i x
  exact k s' (a.next g e i) x

theorem at_emitIf {n : Nat} {ty : HT} {p w r : Bytes} {Q : Unit → HS St → Prop} (a : At env s p (w ++ r))
    (hn : n = w.length) (ht : ty ≠ .none) (h : w ≠ [] → Tok p (w ++ r) n ty)
    (k : ∀ s', At env s' (p ++ w) r → s'.ext = s.ext → Q () s') : wp (HM.emitAdvIf n ty) Q env s := by
  subst hn
  refine wp_step_emitAdvIf a.good (by rw [a.rem]; simp) ht (fun h0 => a.tok (h (List.length_pos_iff.1 h0))) ?_
  intro s' g _ e i x
  exact k s' (a.next g e i) x

theorem at_advance {n : Nat} {p w r : Bytes} {Q : Unit → HS St → Prop} (a : At env s p (w ++ r))
    (hn : n = w.length) (h : Gap p (w ++ r) n)
    (k : ∀ s', At env s' (p ++ w) r → s'.ext = s.ext → Q () s') : wp (HM.advance n) Q env s := by
  subst hn
  refine wp_step_advance a.good (by rw [a.rem]; simp) (a.gap h) ?_
  intro s' g _ e i x
  exact k s' (a.next g e i) x

theorem at_modify {f : St → St} {p r : Bytes} {Q : Unit → HS St → Prop} (a : At env s p r)
    (k : ∀ s', At env s' p r → s'.ext = f s.ext → Q () s') : wp (HM.modify f) Q env s := by
  refine wp_step_modify a.good ?_
  intro s' g _ e i x
  exact k s' ⟨g, by rw [i]; exact a.before, by rw [e]; exact a.rem⟩ x

theorem gap_white {p w r : Bytes} (h : ∀ c ∈ w, White c) : Gap p (w ++ r) w.length :=
  .white (by rw [List.take_left]; exact h)

theorem gap_spaces {p r : Bytes} (k : Nat) : Gap p (spaces k ++ r) k := by
  have : Gap p (spaces k ++ r) (spaces k).length := by
    refine gap_white ?_
    intro c hc
    unfold spaces at hc
    rw [List.mem_replicate] at hc
    rw [hc.2]
    unfold White; decide
  simpa [spaces] using this

/-- What can happen to the members in the text of a line, which now ends with `p`. -/
def Keeps (x x' : St) (p : Bytes) : Prop := x' = x ∨ (x' = { x with comment := true } ∧ Opened p)

theorem Keeps.rfl {x : St} {p : Bytes} : Keeps x x p := Or.inl (by rfl)

theorem Keeps.trans {x y z : St} {p w : Bytes} (h : Keeps x y p) (hw : OneLine w) (h' : Keeps y z (p ++ w)) :
    Keeps x z (p ++ w) := by
  rcases h with e | ⟨e, o⟩
  · subst e
    exact h'
  · subst e
    rcases h' with e' | ⟨e', _⟩
    · subst e'
      exact Or.inr ⟨by rfl, o.append hw⟩
    · subst e'
      exact Or.inr ⟨by rfl, o.append hw⟩

/-! ## Regions -/

/-- Text with markup, and what follows it. -/
structure Reg (v t : Bytes) : Prop where
  line : OneLine v
  ends : ends t = true
  tail : ∀ c ∈ b!"*_", v.getLast? = some c → t.head? ≠ some c

theorem Reg.right {v w t : Bytes} (h : Reg (v ++ w) t) : Reg w t := by
  refine ⟨OneLine.right h.line, h.ends, ?_⟩
  intro c hc hl
  refine h.tail c hc ?_
  rw [List.getLast?_append, hl]
  rfl

theorem ends_head {t : Bytes} (h : ends t = true) {d : UInt8} (hd : t.head? = some d) : d ∈ b!"]*_ #\r\n" := by
  cases t with
  | nil => simp at hd
  | cons c t =>
    simp at hd
    subst hd
    unfold ends at h
    by_cases h1 : c = c!" "
    · simp [h1]
    · by_cases h2 : c = c!"#"
      · simp [h2]
      · simp [h1, h2] at h
        simp
        grind

theorem ends_eol {t : Bytes} (h : Eol t) : ends t = true := by
  cases t with
  | nil => simp [ends]
  | cons c t =>
    have := h c rfl
    unfold InLine at this
    have h1 : c = 0x0A ∨ c = 0x0D := by
      by_cases h : c = 0x0A
      · exact Or.inl h
      · by_cases h' : c = 0x0D
        · exact Or.inr h'
        · exact absurd ⟨h, h'⟩ this
    rcases h1 with rfl | rfl <;> simp [ends]

/-- What is known about the character before the text. -/
def PrevOk (p : Bytes) (prev : UInt8) : Prop := isAlnum prev = false → ∀ d, p.getLast? = some d → ¬ Alnum d

theorem prevOk_last {p w : Bytes} {c : UInt8} (h : w.getLast? = some c) : PrevOk (p ++ w) c := by
  intro hc d hd
  rw [List.getLast?_append, h] at hd
  simp at hd
  subst hd
  rw [← isAlnum_iff, hc]
  simp

/-- What an attempt to match does in the text `v` before `t`: either something matches (its beginning
`w`), or nothing changes. -/
def Attempt (env : HEnv) (s : HS St) (p v t : Bytes) (c : UInt8) (no : Prop) (b : Bool) (s' : HS St) : Prop :=
  (b = true ∧ ∃ w v', v = w ++ v' ∧ w ≠ [] ∧ At env s' (p ++ w) (v' ++ t) ∧ Keeps s.ext s'.ext (p ++ w) ∧
    (v' ≠ [] → w.getLast? = some c)) ∨ (b = false ∧ s' = s ∧ no)

theorem mem_take_self {α} {v t : List α} : (v ++ t).take v.length = v := List.take_left ..

theorem expectCodeSpan_spec {p v t : Bytes} (a : At env s p (v ++ t)) (hR : Reg v t) :
    wp (expectCodeSpan v.length) (Attempt env s p v t c!"`" (matchCodeSpan v = none)) env s := by
  unfold expectCodeSpan
  rw [wp_bind, wp_rem, a.rem, mem_take_self]
  split
  · rename_i h
    rw [wp_pure]
    exact Or.inr ⟨rfl, rfl, h⟩
  · rename_i n k h
    obtain ⟨x, y, hv, hk, sp⟩ := codeSpan_some h hR.line
    have sp' : Span n x (y ++ t) := by
      refine ⟨sp.pos, sp.nonempty, sp.head, sp.last, ?_, sp.inner, sp.line⟩
      cases y with
      | nil =>
        intro hh
        have := ends_head hR.ends (by simpa using hh)
        revert this; decide
      | cons d y => simpa using sp.next
    have hn : ticks n ≠ [] := by
      have := sp.pos
      intro hh
      simp at hh
      omega
    have a0 : At env s p (ticks n ++ (x ++ (ticks n ++ (y ++ t)))) := by
      rw [hv] at a
      simpa using a
    rw [wp_bind]
    refine at_emit a0 (by simp) hn (by decide) (.spanOpen sp' (by simp)) fun s1 a1 x1 => ?_
    rw [wp_bind]
    refine at_emitIf a1 hk.symm (by decide) (fun _ => by rw [← hk]; exact .spanText sp' rfl (by simp)) fun s2 a2 x2 => ?_
    rw [wp_bind]
    refine at_emit a2 (by simp) hn (by decide) (.spanClose sp' rfl rfl) fun s3 a3 x3 => ?_
    rw [wp_pure]
    refine Or.inl ⟨rfl, ticks n ++ x ++ ticks n, y, by rw [hv], by simp [sp.nonempty], by simpa using a3, ?_, ?_⟩
    · rw [x3, x2, x1]; exact Keeps.rfl
    · intro _
      exact last_replicate sp.pos _

theorem expectAutolink_spec {p v t : Bytes} (a : At env s p (v ++ t)) :
    wp (expectAutolink v.length) (Attempt env s p v t c!">" (matchAutolink v = 0)) env s := by
  unfold expectAutolink
  rw [wp_bind, wp_rem, a.rem, mem_take_self]
  dsimp only
  split
  · rename_i h
    rw [wp_pure]
    exact Or.inr ⟨rfl, rfl, h⟩
  · rename_i h
    obtain ⟨x, y, hv, hk, al⟩ := autolink_split rfl h
    have a0 : At env s p (b!"<" ++ (x ++ (b!">" ++ (y ++ t)))) := by
      rw [hv] at a
      simpa using a
    rw [wp_bind]
    refine at_emit a0 rfl (by simp) (by decide) (.linkOpen al (by simp; rfl)) fun s1 a1 x1 => ?_
    rw [wp_bind]
    refine at_emit a1 hk.symm (by rintro rfl; simp at hk; omega) (by decide)
      (by rw [← hk]; exact .linkText al rfl (by simp; rfl)) fun s2 a2 x2 => ?_
    rw [wp_bind]
    refine at_emit a2 rfl (by simp) (by decide) (.linkClose al rfl rfl) fun s3 a3 x3 => ?_
    rw [wp_pure]
    refine Or.inl ⟨rfl, b!"<" ++ x ++ b!">", y, by rw [hv], by simp, by simpa using a3, ?_, ?_⟩
    · rw [x3, x2, x1]; exact Keeps.rfl
    · intro _
      rw [List.getLast?_append]; rfl

theorem reference_last {v : Bytes} (h : Reference v) : v.getLast? = some c!";" := by
  cases h with
  | name => rw [List.getLast?_append]; rfl
  | dec => rw [List.getLast?_append]; rfl
  | hex => rw [List.getLast?_append]; rfl

theorem expectReference_spec {p v t : Bytes} (a : At env s p (v ++ t)) :
    wp (expectReference v.length) (Attempt env s p v t c!";" (matchReference v = 0)) env s := by
  unfold expectReference
  rw [wp_bind, wp_rem, a.rem, mem_take_self]
  dsimp only
  split
  · rename_i h
    obtain ⟨h1, h2⟩ := reference_some rfl h
    have a0 : At env s p (v.take (matchReference v) ++ (v.drop (matchReference v) ++ t)) := by
      rw [← List.append_assoc, List.take_append_drop]; exact a
    have hl : matchReference v = (v.take (matchReference v)).length := by rw [List.length_take]; omega
    rw [wp_bind]
    refine at_emit a0 hl (by intro hh; rw [hh] at hl; simp at hl; exact h hl) (by decide) (.reference ?_) fun s1 a1 x1 => ?_
    · rw [List.take_left' hl.symm]
      exact h2
    rw [wp_pure]
    refine Or.inl ⟨rfl, _, _, (List.take_append_drop ..).symm, by intro hh; rw [hh] at hl; simp at hl; exact h hl, a1, ?_, ?_⟩
    · rw [x1]; exact Keeps.rfl
    · intro _
      exact reference_last h2
  · rename_i h
    rw [wp_pure]
    exact Or.inr ⟨rfl, rfl, by omega⟩

theorem occurs_prefix {w x y : Bytes} {k : Nat} (h : OccursAt w (x ++ y) k) (hk : k + w.length ≤ x.length) :
    OccursAt w x k := by
  obtain ⟨a, b, e, rfl⟩ := h
  refine ⟨a, x.drop (a.length + w.length), ?_, rfl⟩
  have h1 := congrArg (List.take (a.length + w.length)) e
  rw [List.take_append_of_le_length hk, show a.length + w.length = (a ++ w).length by simp, List.take_left] at h1
  rw [← h1, show a.length + w.length = (a ++ w).length by simp, List.take_append_drop]

theorem occurs_get {w x : Bytes} {k i : Nat} (h : OccursAt w x k) (hi : i < w.length) : x[k + i]? = w[i]? := by
  obtain ⟨a, b, rfl, rfl⟩ := h
  rw [List.append_assoc, List.getElem?_append_right (by omega), List.getElem?_append_left (by omega)]
  congr 1
  omega

theorem occurs_le {w x : Bytes} {k : Nat} (h : OccursAt w x k) : k + w.length ≤ x.length := by
  obtain ⟨a, b, rfl, rfl⟩ := h
  simp

theorem expectHtmlComment_spec {p v t : Bytes} (fit : CommentsFit env.src) (a : At env s p (v ++ t)) (hR : Reg v t) :
    wp (expectHtmlComment v.length) (Attempt env s p v t c!">" (¬ Spec.Html.Comment v)) env s := by
  unfold expectHtmlComment
  rw [wp_bind, wp_rem, a.rem, mem_take_self]
  dsimp only
  rcases Html.matchComment_spec v with ⟨h1, h2⟩ | ⟨x, n, hv, _, hn, hx, h⟩
  · rw [h1]
    simp only [if_true]
    rw [wp_pure]
    exact Or.inr ⟨rfl, rfl, h2⟩
  · have a0 : At env s p (b!"<!--" ++ (x ++ t)) := by
      rw [hv] at a
      simpa using a
    have hlx : OneLine x := OneLine.right (v := b!"<!--") (by rw [← hv]; exact hR.line)
    have cb : CommentBegins (p ++ b!"<!--") := Or.inr ⟨p, rfl⟩
    rcases h with ⟨h, ho⟩ | ⟨h, rfl⟩
    · rw [h]
      rw [if_neg (by simp), wp_bind]
      refine at_emit a0 rfl (by simp) (by decide) (.commentOpen (by simp)) fun s1 a1 x1 => ?_
      simp only [if_true]
      obtain ⟨y, z, hx', rfl⟩ := ho
      have a1' : At env s1 (p ++ b!"<!--") (y ++ (b!"-->" ++ (z ++ t))) := by
        rw [hx'] at a1
        simpa using a1
      have first : ∀ k, OccursAt b!"-->" (y ++ (b!"-->" ++ (z ++ t))) k → y.length ≤ k := by
        intro k hk
        rcases Nat.lt_or_ge k y.length with hlt | hge
        · refine hx.upTo.1 k ?_
          rw [hx']
          have : y ++ (b!"-->" ++ (z ++ t)) = (y ++ b!"-->" ++ z) ++ t := by simp
          rw [this] at hk
          exact occurs_prefix hk (by simp; omega)
        · exact hge
      rw [wp_bind]
      refine at_emitIf a1' (by omega) (by decide) ?_ fun s2 a2 x2 => ?_
      · intro _
        rw [show 4 + y.length + 3 - 4 - 3 = y.length by omega]
        refine .commentText cb ?_ first (Or.inl ⟨y, z ++ t, by simp, rfl⟩)
        rw [List.take_left]
        rw [hx'] at hlx
        exact OneLine.left (OneLine.left hlx)
      rw [wp_bind]
      refine at_emit a2 rfl (by simp) (by decide) (.commentClose cb rfl ?_ first (by simp)) fun s3 a3 x3 => ?_
      · rw [hx'] at hlx
        exact OneLine.left (OneLine.left hlx)
      rw [wp_pure]
      refine Or.inl ⟨rfl, b!"<!--" ++ y ++ b!"-->", z, by rw [hv, hx']; simp, by simp, by simpa using a3, ?_, ?_⟩
      · rw [x3, x2, x1]; exact Keeps.rfl
      · intro _
        rw [List.getLast?_append]; rfl
    · rw [h]
      have hx0 : x ≠ [] := by
        rintro rfl
        have := fit p t (by rw [a.src, hv]; simp)
        rw [hR.ends] at this
        cases this
      rw [if_neg (by simp), wp_bind]
      refine at_emit a0 rfl (by simp) (by decide) (.commentOpen (by simp)) fun s1 a1 x1 => ?_
      simp only [Bool.false_eq_true, if_false]
      rw [wp_bind]
      refine at_emit a1 (by omega) hx0 (by decide) ?_ fun s2 a2 x2 => ?_
      · rw [show 4 + x.length - 4 = x.length by omega]
        refine .commentText cb (by rw [List.take_left]; exact hlx) ?_ (Or.inr (by rw [List.drop_left]; exact hR.ends))
        intro k hk
        rcases Nat.lt_or_ge k x.length with hlt | hge
        · exfalso
          rcases Nat.lt_or_ge x.length (k + 3) with h3 | h3
          · have hle := occurs_le hk
            simp at hle
            have hi : x.length - k < (b!"-->").length := by simp; omega
            have h4 := occurs_get hk hi
            rw [show k + (x.length - k) = x.length by omega, List.getElem?_append_right (by omega), Nat.sub_self,
              ← List.head?_eq_getElem?] at h4
            have hd : t.head? = some c!"-" ∨ t.head? = some c!">" := by
              have : x.length - k = 1 ∨ x.length - k = 2 := by omega
              rcases this with e | e <;> rw [e] at h4 <;> simp at h4
              · exact Or.inl h4
              · exact Or.inr h4
            rcases hd with hd | hd
            · have := ends_head hR.ends hd; revert this; decide
            · have := ends_head hR.ends hd; revert this; decide
          · have := hx.upTo.1 k (occurs_prefix hk h3)
            omega
        · exact hge
      rw [wp_bind]
      refine at_modify a2 fun s3 a3 x3 => ?_
      rw [wp_pure]
      refine Or.inl ⟨rfl, b!"<!--" ++ x, [], by rw [hv]; simp, by simp, by simpa using a3, ?_, by simp⟩
      exact Or.inr ⟨by rw [x3, x2, x1], p, x, by simp, hlx⟩

/-! ## Links and emphasis -/

theorem linkEnd_spec {u text url title t : Bytes} (h : Link text url title)
    (a : At env s (u ++ b!"[" ++ text) (Spec.Markdown.linkEnd url title t)) :
    wp (linkEnd url.length title.length) (fun _ s' =>
      At env s' (u ++ b!"[" ++ text ++ b!"](" ++ url ++ title ++ b!")") t ∧ s'.ext = s.ext) env s := by
  unfold linkEnd
  have a0 : At env s (u ++ b!"[" ++ text) (b!"](" ++ (url ++ (title ++ (b!")" ++ t)))) := by
    simpa [Spec.Markdown.linkEnd] using a
  rw [wp_bind]
  refine at_emit a0 rfl (by simp) (by decide) (.linkMiddle h rfl (by simp [Spec.Markdown.linkEnd]; rfl)) fun s1 a1 x1 => ?_
  rw [wp_bind]
  refine at_emitIf a1 rfl (by decide) (fun _ => .linkUrl h rfl (by simp; rfl)) fun s2 a2 x2 => ?_
  rw [wp_bind]
  refine at_advance a2 rfl (.title h rfl (by simp; rfl)) fun s3 a3 x3 => ?_
  refine at_emit a3 rfl (by simp) (by decide) (.linkEnd h rfl rfl) fun s4 a4 x4 => ?_
  exact ⟨a4, by rw [x4, x3, x2, x1]⟩

theorem expectImage_spec {p v t : Bytes} (a : At env s p (b!"![" ++ v ++ t)) (hl : OneLine v) :
    wp (expectImage (b!"![" ++ v).length) (Attempt env s p (b!"![" ++ v) t c!")"
      (5 ≤ (b!"![" ++ v).length → matchLink 2 (b!"![" ++ v) = none)) env s := by
  unfold expectImage
  rw [wp_bind, wp_rem, a.rem, mem_take_self]
  split
  · rw [wp_pure]
    exact Or.inr ⟨rfl, rfl, fun _ => by omega⟩
  · split
    · rename_i h
      rw [wp_pure]
      exact Or.inr ⟨rfl, rfl, fun _ => h⟩
    · rename_i x y z h
      obtain ⟨text, url, title, w, h1, rfl, rfl, rfl, h5⟩ := link_some h (OneLine.append (by unfold OneLine InLine; decide) hl)
      have hv : v = text ++ Spec.Markdown.linkEnd url title w := by simpa using h1
      have e : Spec.Markdown.linkEnd url title w ++ t = Spec.Markdown.linkEnd url title (w ++ t) := by simp [Spec.Markdown.linkEnd]
      have a0 : At env s p (b!"![" ++ (text ++ Spec.Markdown.linkEnd url title (w ++ t))) := by
        rw [hv] at a
        rw [← e]
        simpa using a
      rw [wp_bind]
      refine at_emit a0 rfl (by simp) (by decide) (.imageBegin h5 (by simp; rfl)) fun s1 a1 x1 => ?_
      rw [wp_bind]
      refine at_advance a1 rfl (.alt h5 rfl rfl) fun s2 a2 x2 => ?_
      rw [wp_bind]
      have a2' : At env s2 (p ++ b!"!" ++ b!"[" ++ text) (Spec.Markdown.linkEnd url title (w ++ t)) := by simpa using a2
      refine wp_mono (linkEnd_spec h5 a2') ?_
      rintro _ s3 ⟨a3, x3⟩
      rw [wp_pure]
      refine Or.inl ⟨rfl, b!"![" ++ text ++ b!"](" ++ url ++ title ++ b!")", w, by rw [hv]; simp [Spec.Markdown.linkEnd],
        by simp, by simpa using a3, ?_, ?_⟩
      · rw [x3, x2, x1]; exact Keeps.rfl
      · intro _
        rw [List.getLast?_append]; rfl

/-- What is assumed about the recursion, for texts shorter than `n`. -/
def AgainOk (n : Nat) (again : Nat → UInt8 → HM St Unit) : Prop :=
  ∀ env s p v t prev, CommentsFit env.src → v.length < n → At env s p (v ++ t) → Reg v t → PrevOk p prev →
    wp (again v.length prev) (fun _ s' => At env s' (p ++ v) t ∧ Keeps s.ext s'.ext (p ++ v)) env s

theorem expectLink_spec {again : Nat → UInt8 → HM St Unit} {n : Nat} {p v t : Bytes} (ok : AgainOk n again)
    (fit : CommentsFit env.src) (a : At env s p (b!"[" ++ v ++ t)) (hn : v.length < n) (hl : OneLine v) :
    wp (expectLink again (b!"[" ++ v).length) (Attempt env s p (b!"[" ++ v) t c!")"
      (4 ≤ (b!"[" ++ v).length → matchLink 1 (b!"[" ++ v) = none)) env s := by
  unfold expectLink
  rw [wp_bind, wp_rem, a.rem, mem_take_self]
  split
  · rw [wp_pure]
    exact Or.inr ⟨rfl, rfl, fun _ => by omega⟩
  · split
    · rename_i h
      rw [wp_pure]
      exact Or.inr ⟨rfl, rfl, fun _ => h⟩
    · rename_i x y z h
      obtain ⟨text, url, title, w, h1, rfl, rfl, rfl, h5⟩ := link_some h (OneLine.append (by unfold OneLine InLine; decide) hl)
      have hv : v = text ++ Spec.Markdown.linkEnd url title w := by simpa using h1
      have e : Spec.Markdown.linkEnd url title w ++ t = Spec.Markdown.linkEnd url title (w ++ t) := by simp [Spec.Markdown.linkEnd]
      have a0 : At env s p (b!"[" ++ (text ++ Spec.Markdown.linkEnd url title (w ++ t))) := by
        rw [hv] at a
        rw [← e]
        simpa using a
      have htl : OneLine text := OneLine.left (OneLine.left h5.line)
      rw [wp_bind]
      refine at_emit a0 rfl (by simp) (by decide) (.linkBegin h5 (by simp; rfl)) fun s1 a1 x1 => ?_
      rw [wp_bind]
      refine wp_mono (ok env s1 _ text _ 0 fit (by rw [hv] at hn; simp at hn; omega) a1 ⟨htl, ?_, ?_⟩ ?_) ?_
      · simp [Spec.Markdown.linkEnd, ends]
      · intro c hc _ hh
        simp [Spec.Markdown.linkEnd] at hh
        subst hh
        revert hc; decide
      · intro _ d hd
        simp at hd
        subst hd
        rw [← isAlnum_iff]
        decide
      rintro _ s2 ⟨a2, k2⟩
      rw [wp_bind]
      refine wp_mono (linkEnd_spec h5 a2) ?_
      rintro _ s3 ⟨a3, x3⟩
      rw [wp_pure]
      refine Or.inl ⟨rfl, b!"[" ++ text ++ b!"](" ++ url ++ title ++ b!")", w, by rw [hv]; simp [Spec.Markdown.linkEnd],
        by simp, by simpa using a3, ?_, ?_⟩
      · rw [x3]
        rw [x1] at k2
        have := k2.trans (w := b!"](" ++ url ++ title ++ b!")") ?_ (z := s2.ext) Keeps.rfl
        · simpa using this
        · have h6 := h5.line
          refine OneLine.append (OneLine.append (OneLine.append ?_ (OneLine.right (OneLine.left h6))) (OneLine.right h6)) ?_
          · unfold OneLine InLine; decide
          · unfold OneLine InLine; decide
      · intro _
        rw [List.getLast?_append]; rfl

theorem expectEmphasis_spec {again : Nat → UInt8 → HM St Unit} {n : Nat} {p v t : Bytes} {c prev : UInt8} (ok : AgainOk n again)
    (fit : CommentsFit env.src) (hc : c ∈ b!"*_") (a : At env s p (v ++ t)) (hn : v.length ≤ n) (hR : Reg v t) (hp : PrevOk p prev) :
    wp (expectEmphasis again c v.length prev) (Attempt env s p v t c True) env s := by
  unfold expectEmphasis
  rw [wp_bind, wp_rem, a.rem, mem_take_self]
  split
  · rw [wp_pure]
    exact Or.inr ⟨rfl, rfl, trivial⟩
  · rename_i m close h
    obtain ⟨x, y, hv, rfl, h1, h2, h3, h4, h5, h6⟩ := emphasis_some hc h
    have hcl : InLine c := by
      simp at hc
      rcases hc with rfl | rfl <;> (unfold InLine; decide)
    have hrl : OneLine (List.replicate m c) := oneLine_replicate hcl
    have hr0 : List.replicate m c ≠ [] := by
      intro hh
      simp at hh
      omega
    have hxl : OneLine x := by
      have := hR.line
      rw [hv] at this
      exact OneLine.right (OneLine.left (OneLine.left this))
    have em : Emphasis c m p x (y ++ t) := by
      refine ⟨hc, h1, h2, h3, h4, ?_, hxl, ?_⟩
      · cases y with
        | nil =>
          refine hR.tail c hc ?_
          rw [hv]
          simp only [List.append_nil]
          exact last_replicate (by omega) _
        | cons d y => simpa using h5
      · intro hu
        refine ⟨hp (h6 hu).1, ?_⟩
        cases y with
        | nil =>
          intro d hd ha
          have h7 := ends_head hR.ends (by simpa using hd)
          rw [← isAlnum_iff] at ha
          simp at h7
          rcases h7 with rfl | rfl | rfl | rfl | rfl | rfl | rfl <;> revert ha <;> decide
        | cons d y => simpa using (h6 hu).2
    have a0 : At env s p (List.replicate m c ++ (x ++ (List.replicate m c ++ (y ++ t)))) := by
      rw [hv] at a
      simpa using a
    rw [wp_bind]
    refine at_emit a0 (by simp) hr0 (by decide) (.emphasisBegin em (by simp)) fun s1 a1 x1 => ?_
    rw [wp_bind, Nat.add_sub_cancel_left]
    have hhead : (List.replicate m c ++ (y ++ t)).head? = some c := by
      cases m with
      | zero => omega
      | succ m => simp [List.replicate_succ]
    refine wp_mono (ok env s1 _ x _ c fit (by rw [hv] at hn; simp at hn; omega) a1 ⟨hxl, ?_, ?_⟩ ?_) ?_
    · unfold ends
      rw [hhead]
      simp at hc
      simp
      left; right
      exact hc
    · intro d hd hl hh
      rw [hhead] at hh
      cases hh
      exact (h4 _ hl).1 rfl
    · exact prevOk_last (last_replicate (x := []) (by omega) : ([] ++ List.replicate m c).getLast? = some c)
    rintro _ s2 ⟨a2, k2⟩
    rw [wp_bind]
    refine at_emit a2 (by simp) hr0 (by decide) (.emphasisEnd em rfl rfl) fun s3 a3 x3 => ?_
    rw [wp_pure]
    refine Or.inl ⟨rfl, List.replicate m c ++ x ++ List.replicate m c, y, by rw [hv], by simp [h2], by simpa using a3, ?_, ?_⟩
    · rw [x3]
      rw [x1] at k2
      have := k2.trans hrl (z := s2.ext) Keeps.rfl
      simpa using this
    · intro _
      exact last_replicate (by omega) _

/-! ## Inline content -/

theorem stray_of {c : UInt8} {v t : Bytes} (hR : Reg (c :: v) t) (hc : Special c)
    (code : c = c!"`" → matchCodeSpan (c :: v) = none)
    (lt : c = c!"<" → ¬ Spec.Html.Comment (c :: v) ∧ matchAutolink (c :: v) = 0)
    (esc : c = c!"\\" → ∀ d, v.head? = some d → ¬ Punctuation d)
    (amp : c = c!"&" → matchReference (c :: v) = 0)
    (bang : c = c!"!" → v.head? = some c!"[" → 5 ≤ (c :: v).length → matchLink 2 (c :: v) = none)
    (brack : c = c!"[" → 4 ≤ (c :: v).length → matchLink 1 (c :: v) = none) :
    Stray (c :: v ++ t) (c :: v).length := by
  refine ⟨⟨by simp, by simp, ?_, ?_⟩, ?_, ?_, ?_, ?_, ?_, ?_, ?_, ?_⟩
  · rw [mem_take_self]; exact hR.line
  · rw [List.drop_left]; exact hR.ends
  · simpa using hc
  · intro n x y e
    rw [mem_take_self] at e
    intro sp
    have hn := sp.pos
    refine codeSpan_none (code ?_) e sp
    obtain ⟨n, rfl⟩ : ∃ k, n = k + 1 := ⟨n - 1, by omega⟩
    simp [List.replicate_succ] at e
    exact e.1
  · rw [mem_take_self]
    intro hC
    obtain ⟨x, n, e, _⟩ := id hC
    exact (lt (by simp at e; exact e.1)).1 hC
  · intro x y e
    rw [mem_take_self] at e
    refine autolink_none (lt ?_).2 e
    simp at e
    exact e.1
  · intro d y e
    rw [mem_take_self] at e
    simp at e
    exact esc e.1 d (by rw [e.2]; rfl)
  · intro x y e
    rw [mem_take_self] at e
    intro hr
    refine reference_none (amp ?_) e hr
    cases hr <;> simp at e <;> exact e.1
  · intro x y z w e
    rw [mem_take_self] at e
    have h1 : c = c!"!" ∧ v.head? = some c!"[" := by
      simp at e
      exact ⟨e.1, by rw [e.2]; rfl⟩
    refine link_none (bang h1.1 h1.2 ?_) (k := 2) (t := w) ?_
    · rw [e]; simp [Spec.Markdown.linkEnd]; omega
    · rw [e]; simp
  · intro x y z w e
    rw [mem_take_self] at e
    have h1 : c = c!"[" := by
      simp at e
      exact e.1
    refine link_none (brack h1 ?_) (k := 1) (t := w) ?_
    · rw [e]; simp [Spec.Markdown.linkEnd]; omega
    · rw [e]; simp

/-- What a step in the text `v` before `t` does. -/
def Goes (env : HEnv) (s : HS St) (p v t : Bytes) (prev : UInt8) (s' : HS St) : Prop :=
  ∃ w v', v = w ++ v' ∧ w ≠ [] ∧ At env s' (p ++ w) (v' ++ t) ∧ Keeps s.ext s'.ext (p ++ w) ∧
    (v' ≠ [] → PrevOk (p ++ w) prev)

theorem oneByte_spec {p v t : Bytes} {c : UInt8} (a : At env s p (c :: v ++ t)) (h : Stray (c :: v ++ t) (c :: v).length) :
    wp (oneByte c) (Goes env s p (c :: v) t) env s := by
  unfold oneByte
  have a0 : At env s p ([c] ++ (v ++ t)) := by simpa using a
  rw [wp_bind]
  refine at_advance a0 rfl (.stray h) fun s1 a1 x1 => ?_
  rw [wp_pure]
  exact ⟨[c], v, rfl, by simp, a1, by rw [x1]; exact Keeps.rfl, fun _ => prevOk_last rfl⟩

theorem orOne_spec {m : HM St Bool} {p v t : Bytes} {c prev : UInt8} {no : Prop} (a : At env s p (c :: v ++ t))
    (hm : wp m (Attempt env s p (c :: v) t prev no) env s) (h : no → Stray (c :: v ++ t) (c :: v).length) :
    wp (orOne m prev c) (Goes env s p (c :: v) t) env s := by
  unfold orOne
  rw [wp_bind]
  refine wp_mono hm ?_
  rintro b s1 (⟨rfl, w, v', h1, h2, h3, h4, h5⟩ | ⟨rfl, rfl, hno⟩)
  · simp only [if_true]
    rw [wp_pure]
    exact ⟨w, v', h1, h2, h3, h4, fun h => prevOk_last (h5 h)⟩
  · simp only [Bool.false_eq_true, if_false]
    exact oneByte_spec a (h hno)

theorem plainText_spec {p v t : Bytes} {c : UInt8} {heading : Bool} (a : At env s p (c :: v ++ t)) (hR : Reg (c :: v) t)
    (hc : ¬ Special c) (hh : heading = true → InHeading p) :
    wp (plainText heading (c :: v).length) (Goes env s p (c :: v) t) env s := by
  unfold plainText
  rw [wp_bind, wp_rem, a.rem, mem_take_self]
  dsimp only
  obtain ⟨x, y, h1, h2, h3, h4⟩ := len_split (fun c => !isSpecial c) v
  simp only [List.drop_succ_cons, List.drop_zero, ← h2]
  have a0 : At env s p (c :: x ++ (y ++ t)) := by
    rw [h1] at a
    simpa using a
  have hx : ∀ d ∈ c :: x, InLine d ∧ ¬ Special d := by
    intro d hd
    refine ⟨hR.line d (by rw [h1]; exact List.mem_append_left (as := c :: x) _ hd), ?_⟩
    rcases List.mem_cons.1 hd with rfl | hd
    · exact hc
    · rw [← isSpecial_iff]
      simpa using h3 d hd
  have he : (∃ d, (c :: x ++ (y ++ t))[(c :: x).length]? = some d ∧ Special d) ∨ ends ((c :: x ++ (y ++ t)).drop (c :: x).length) = true := by
    rw [List.drop_left, List.getElem?_append_right (by omega), Nat.sub_self]
    cases y with
    | nil => right; simpa using hR.ends
    | cons d y =>
      left
      refine ⟨d, rfl, ?_⟩
      rw [← isSpecial_iff]
      simpa using h4 d rfl
  have hl : 1 + x.length = (c :: x).length := by simp; omega
  have hx' : ∀ d ∈ (c :: x ++ (y ++ t)).take (1 + x.length), InLine d ∧ ¬ Special d := by
    rw [hl, mem_take_self]; exact hx
  have hg : (c :: x).getLast? = some (((c :: v ++ t)[1 + x.length - 1]?).getD 0) := by
    have e : c :: v ++ t = c :: x ++ (y ++ t) := by rw [h1]; simp
    rw [e, List.getLast?_eq_getElem?, List.getElem?_append_left (by simp)]
    simp
  have fin : ∀ s1, At env s1 (p ++ c :: x) (y ++ t) → s1.ext = s.ext →
      Goes env s p (c :: v) t (((c :: v ++ t)[1 + x.length - 1]?).getD 0) s1 := by
    intro s1 a1 x1
    exact ⟨c :: x, y, by rw [h1]; simp, by simp, a1, by rw [x1]; exact Keeps.rfl, fun _ => prevOk_last hg⟩
  split
  · rename_i hb
    rw [wp_bind]
    refine at_emit a0 hl (by simp) (by decide) (.headingText (hh hb) hx' (by rw [hl]; exact he)) fun s1 a1 x1 => ?_
    rw [wp_pure]
    exact fin s1 a1 x1
  · rw [wp_bind]
    refine at_advance a0 hl (.plain hx' (by rw [hl]; exact he)) fun s1 a1 x1 => ?_
    rw [wp_pure]
    exact fin s1 a1 x1

local macro "no!" : term => `(fun h => absurd h (by decide))

theorem inlineStep_spec {again : Nat → UInt8 → HM St Unit} {n : Nat} {p v t : Bytes} {prev : UInt8} {heading : Bool}
    (ok : AgainOk n again) (fit : CommentsFit env.src) (a : At env s p (v ++ t)) (hv : v ≠ []) (hn : v.length ≤ n)
    (hR : Reg v t) (hp : PrevOk p prev) (hh : heading = true → InHeading p) :
    wp (inlineStep again heading v.length prev) (Goes env s p v t) env s := by
  cases v with
  | nil => simp at hv
  | cons c v =>
    unfold inlineStep
    rw [wp_bind, wp_rem, a.rem, if_neg (by simp)]
    simp only [List.cons_append]
    have str := fun hc => stray_of (c := c) (v := v) (t := t) hR hc
    have a' : At env s p (c :: v ++ t) := a
    by_cases h1 : c = c!"`"
    · rw [if_pos h1]
      subst h1
      exact orOne_spec a (expectCodeSpan_spec a hR) fun h => str (by unfold Special; decide) (fun _ => h)
        no! no! no! no! no!
    rw [if_neg h1]
    by_cases h2 : c = c!"<"
    · rw [if_pos h2]
      subst h2
      refine orOne_spec (no := ¬ Spec.Html.Comment (c!"<" :: v) ∧ matchAutolink (c!"<" :: v) = 0) a ?_
        fun h => str (by unfold Special; decide) no! (fun _ => h) no! no! no! no!
      refine wp_step_or (wp_mono (expectHtmlComment_spec fit a hR) ?_)
      rintro b s1 (⟨rfl, h⟩ | ⟨rfl, rfl, h⟩)
      · simp only [if_true]
        exact Or.inl ⟨rfl, h⟩
      · simp only [Bool.false_eq_true, if_false]
        refine wp_mono (expectAutolink_spec a) ?_
        rintro b s2 (h' | ⟨rfl, rfl, h'⟩)
        · exact Or.inl h'
        · exact Or.inr ⟨rfl, rfl, h, h'⟩
    rw [if_neg h2]
    by_cases h3 : c = c!"\\"
    · rw [if_pos h3]
      subst h3
      split
      · rename_i h4
        obtain ⟨h4, h5⟩ := h4
        cases v with
        | nil => simp at h4
        | cons d v =>
          simp [isPunctuation_iff] at h5
          have a0 : At env s p ([c!"\\", d] ++ (v ++ t)) := by simpa using a
          rw [wp_bind]
          refine at_emit a0 rfl (by simp) (by decide) (.escape (by simp) h5) fun s1 a1 x1 => ?_
          rw [wp_pure]
          exact ⟨[c!"\\", d], v, rfl, by simp, a1, by rw [x1]; exact Keeps.rfl, fun _ => prevOk_last rfl⟩
      · rename_i h4
        refine oneByte_spec a' (str (by unfold Special; decide) no! no! (fun _ d hd hP => h4 ?_) no!
          no! no!)
        cases v with
        | nil => simp at hd
        | cons x v =>
          simp at hd
          subst hd
          simpa [isPunctuation_iff] using hP
    rw [if_neg h3]
    by_cases h4 : c = c!"&"
    · rw [if_pos h4]
      subst h4
      exact orOne_spec a (expectReference_spec a) fun h => str (by unfold Special; decide) no! no! no!
        (fun _ => h) no! no!
    rw [if_neg h4]
    by_cases h5 : c = c!"!"
    · rw [if_pos h5]
      subst h5
      split
      · rename_i h6
        cases v with
        | nil => simp at h6
        | cons d v =>
          have hd : d = c!"[" := by simpa using h6.2
          subst hd
          have hl : OneLine v := fun x hx => hR.line x (by simp [hx])
          exact orOne_spec a' (expectImage_spec a hl) fun h => str (by unfold Special; decide) no! no!
            no! no! (fun _ _ => h) no!
      · rename_i h6
        refine oneByte_spec a' (str (by unfold Special; decide) no! no! no! no!
          (fun _ hd _ => absurd ?_ h6) no!)
        cases v with
        | nil => simp at hd
        | cons x v =>
          simp at hd
          simp [hd]
    rw [if_neg h5]
    by_cases h6 : c = c!"["
    · rw [if_pos h6]
      subst h6
      have hl : OneLine v := fun x hx => hR.line x (by simp [hx])
      exact orOne_spec a' (expectLink_spec ok fit a (by simp at hn; omega) hl) fun h => str (by unfold Special; decide)
        no! no! no! no! no! (fun _ => h)
    rw [if_neg h6]
    split
    · rename_i h7
      exact orOne_spec a' (expectEmphasis_spec ok fit (by simpa using h7) a hn hR hp) fun _ =>
        str (by unfold Special; rcases h7 with rfl | rfl <;> decide) (fun h => absurd h h1) (fun h => absurd h h2)
          (fun h => absurd h h3) (fun h => absurd h h4) (fun h => absurd h h5) (fun h => absurd h h6)
    · rename_i h7
      refine plainText_spec a' hR ?_ hh
      unfold Special
      simp
      simp at h7
      exact ⟨h1, h2, h3, h4, h5, h6, h7⟩

theorem inline_ok : ∀ (depth : Nat) (heading : Bool), ∀ env s p v t prev, CommentsFit env.src → v.length < depth →
    At env s p (v ++ t) → Reg v t → PrevOk p prev → (heading = true → InHeading p) →
    wp (inline depth heading v.length prev) (fun _ s' => At env s' (p ++ v) t ∧ Keeps s.ext s'.ext (p ++ v)) env s
  | 0, _ => fun _ _ _ _ _ _ _ h => by omega
  | depth + 1, heading => by
    intro env s p v t prev fit hd a hR hp hh
    have ok : AgainOk depth (inline depth false) := fun env s p v t prev fit hd a hR hp =>
      inline_ok depth false env s p v t prev fit hd a hR hp (by simp)
    unfold inline
    split
    · rename_i h0
      have : v = [] := List.length_eq_zero_iff.1 h0
      subst this
      rw [wp_pure]
      exact ⟨by simpa using a, Keeps.rfl⟩
    · rw [wp_bind, wp_index]
      refine wp_loop (fun prev s1 => ∃ w v', v = w ++ v' ∧ At env s1 (p ++ w) (v' ++ t) ∧ Keeps s.ext s1.ext (p ++ w) ∧
          (v' ≠ [] → PrevOk (p ++ w) prev)) (fun _ s1 => s.idx + v.length - s1.idx) ?_ _ prev s
        ⟨[], v, rfl, by simpa using a, Keeps.rfl, fun _ => by simpa using hp⟩ (by omega)
      rintro prev1 s1 ⟨w, v', hv, a1, k1, hp1⟩
      unfold inlineLoopStep
      rw [wp_bind, wp_index, wp_bind, wp_eof]
      have hi1 : s1.idx = s.idx + w.length := by
        have h1 := a1.len
        have h2 := a.len
        simp at h1
        omega
      have hlen : v.length = w.length + v'.length := by rw [hv]; simp
      have hlw : OneLine w := OneLine.left (w := v') (by rw [← hv]; exact hR.line)
      split
      · rename_i h1
        have hv' : v' ≠ [] := by
          rintro rfl
          simp at hlen
          omega
        rw [wp_bind, show s.idx + v.length - s1.idx = v'.length by omega]
        refine wp_mono (inlineStep_spec ok fit a1 hv' (by omega) (Reg.right (v := w) (by rw [← hv]; exact hR)) (hp1 hv')
          (fun h => InHeading.append (hh h) hlw)) ?_
        rintro prev2 s2 ⟨x, v2, h2, h3, a2, k2, hp2⟩
        rw [wp_pure]
        have hlx : OneLine x := by
          have := hR.line
          rw [hv, h2] at this
          exact OneLine.left (OneLine.right this)
        refine ⟨⟨w ++ x, v2, by rw [hv, h2]; simp, by simpa using a2, by simpa using k1.trans hlx k2, by simpa using hp2⟩, ?_⟩
        have h4 := a2.len
        have h5 := a1.len
        have h6 := List.length_pos_iff.2 h3
        simp at h4 h5
        have h7 := h1.1
        omega
      · rename_i h1
        rw [wp_pure]
        have hv' : v' = [] := by
          apply Classical.byContradiction
          intro hne
          apply h1
          refine ⟨?_, ?_⟩
          · have := List.length_pos_iff.2 hne
            omega
          · rw [a1.rem]
            cases v' with
            | nil => simp at hne
            | cons => rfl
        subst hv'
        simp at hv
        subst hv
        exact ⟨by simpa using a1, k1⟩

theorem consumeInline_spec {p v t : Bytes} {prev : UInt8} {heading : Bool} (fit : CommentsFit env.src) (a : At env s p (v ++ t))
    (hR : Reg v t) (hp : PrevOk p prev) (hh : heading = true → InHeading p) :
    wp (consumeInline v.length prev heading) (fun _ s' => At env s' (p ++ v) t ∧ Keeps s.ext s'.ext (p ++ v)) env s :=
  inline_ok _ heading env s p v t prev fit (by omega) a hR hp hh

/-! ## Blocks -/

theorem longest_line {v t : Bytes} (hv : OneLine v) (ht : Eol t) : Longest InLine (v ++ t) v.length := by
  refine ⟨by rw [mem_take_self]; exact hv, ?_⟩
  intro c hc
  rw [List.getElem?_append_right (by omega), Nat.sub_self, ← List.head?_eq_getElem?] at hc
  exact ht c hc

theorem lead_split (v : Bytes) : ∃ k v1, k ≤ 3 ∧ v = spaces k ++ v1 ∧ matchLeadSpaces v = k := by
  refine ⟨matchLeadSpaces v, v.drop (matchLeadSpaces v), (lead_le v).1, ?_, rfl⟩
  rw [← take_lead, List.take_append_drop]

theorem run_split6 (c : UInt8) (k : Nat) (v : Bytes) : ∃ v1, runOf c (v.take k) ≤ k ∧
    v = List.replicate (runOf c (v.take k)) c ++ v1 := by
  refine ⟨v.drop (runOf c (v.take k)), (run_take_le c v k).1, ?_⟩
  rw [← take_run_take, List.take_append_drop]

theorem spaces_length (k : Nat) : (spaces k).length = k := by simp [spaces]

theorem get_spaces {k : Nat} {v : Bytes} : (spaces k ++ v)[k]? = v.head? := by
  rw [List.getElem?_append_right (by simp [spaces]), List.head?_eq_getElem?]
  simp [spaces]

theorem drop_spaces {k : Nat} {v : Bytes} : (spaces k ++ v).drop k = v :=
  List.drop_left' (spaces_length k)

theorem White.of_blank {c : UInt8} (h : Blank c) : White c := by
  unfold Blank at h
  unfold White
  simp at h ⊢
  grind

theorem Eol.white {t : Bytes} (h : Eol t) {c : UInt8} (hc : t.head? = some c) : White c := by
  have := h c hc
  unfold InLine at this
  unfold White
  simp at this ⊢
  grind

theorem dropWhile_spaces (i : Nat) (x : Bytes) :
    (spaces i ++ x).dropWhile (· == c!" ") = x.dropWhile (· == c!" ") := by
  induction i with
  | zero => rfl
  | succ i ih =>
    show (c!" " :: (spaces i ++ x)).dropWhile (· == c!" ") = _
    rw [List.dropWhile_cons_of_pos (by decide), ih]

theorem dropWhile_hashes (i : Nat) (x : Bytes) :
    (List.replicate i c!"#" ++ x).dropWhile (· == c!"#") = x.dropWhile (· == c!"#") := by
  induction i with
  | zero => rfl
  | succ i ih =>
    show (c!"#" :: (List.replicate i c!"#" ++ x)).dropWhile (· == c!"#") = _
    rw [List.dropWhile_cons_of_pos (by decide), ih]

theorem dropWhile_self {x : Bytes} {c : UInt8} (h : x.head? ≠ some c) : x.dropWhile (· == c) = x := by
  cases x with
  | nil => rfl
  | cons d x =>
    simp at h
    simp [h]

theorem Eol.ne {t : Bytes} (h : Eol t) {c : UInt8} (hc : InLine c) : t.head? ≠ some c := fun e => h c e hc

theorem ends_closing {t : Bytes} (h : Eol t) (i j k : Nat) :
    ends (spaces i ++ List.replicate j c!"#" ++ spaces k ++ t) = true := by
  have h1 : t.head? ≠ some c!" " := Eol.ne h (by unfold InLine; decide)
  have h2 : t.head? ≠ some c!"#" := Eol.ne h (by unfold InLine; decide)
  have h3 : (spaces k ++ t).head? ≠ some c!"#" := by
    cases k with
    | zero => exact h2
    | succ k => simp [spaces, List.replicate_succ]
  have h4 : (t.head?).all (fun c => c == 0x0A || c == 0x0D) = true := by
    cases t with
    | nil => rfl
    | cons c t =>
      have := h c rfl
      unfold InLine at this
      simp
      grind
  unfold ends
  rw [List.append_assoc, List.append_assoc, dropWhile_spaces]
  cases j with
  | zero =>
    simp only [List.replicate_zero, List.nil_append]
    rw [dropWhile_spaces, dropWhile_self h1, dropWhile_self h2, dropWhile_self h1, h4]
    simp
  | succ j =>
    rw [dropWhile_self (x := List.replicate (j + 1) c!"#" ++ (spaces k ++ t)) (c := c!" ")
      (by simp [List.replicate_succ]), dropWhile_hashes, dropWhile_self h3, dropWhile_spaces,
      dropWhile_self h1, h4]
    simp

theorem reg_closing {v t : Bytes} (hv : OneLine v) (h : Eol t) (i j k : Nat) :
    Reg v (spaces i ++ List.replicate j c!"#" ++ spaces k ++ t) := by
  refine ⟨hv, ends_closing h i j k, ?_⟩
  intro c hc _ e
  have h1 : InLine c ∧ c ≠ c!" " ∧ c ≠ c!"#" := by
    simp at hc
    rcases hc with rfl | rfl <;> unfold InLine <;> decide
  cases i with
  | succ i =>
    simp [spaces, List.replicate_succ] at e
    exact h1.2.1 e.symm
  | zero =>
    cases j with
    | succ j =>
      simp [spaces, List.replicate_succ] at e
      exact h1.2.2 e.symm
    | zero =>
      cases k with
      | succ k =>
        simp [spaces, List.replicate_succ] at e
        exact h1.2.1 e.symm
      | zero => exact Eol.ne h h1.1 (by simpa [spaces] using e)

theorem reg_eol {v t : Bytes} (hv : OneLine v) (h : Eol t) : Reg v t := by
  simpa [spaces] using reg_closing hv h 0 0 0

/-- What a block does in the line `v` before `t`. -/
def Whole (env : HEnv) (s : HS St) (p v t : Bytes) (s' : HS St) : Prop :=
  At env s' (p ++ v) t ∧ Keeps s.ext s'.ext (p ++ v)

/-- What an attempt to match a block does in the line `v` before `t`. -/
def Done (env : HEnv) (s : HS St) (p v t : Bytes) (b : Bool) (s' : HS St) : Prop :=
  (b = true ∧ Whole env s p v t s') ∨ (b = false ∧ s' = s)

theorem headingContent_spec {p v t : Bytes} (fit : CommentsFit env.src) (a : At env s p (v ++ t)) (hv : OneLine v)
    (ht : Eol t) (hh : v ≠ [] → InHeading p) (hp : v ≠ [] → PrevOk p 0) :
    wp (headingContent v.length) (fun b s' => b = true ∧ Whole env s p v t s') env s := by
  unfold headingContent
  rw [wp_bind, wp_rem, a.rem, mem_take_self]
  split
  · rename_i h0
    have h0 := List.length_pos_iff.1 h0
    obtain ⟨hle, i, j, k, e⟩ := strip_spec v
    dsimp only
    obtain ⟨x, hx⟩ : ∃ x, x = v.take (stripAtxTrailing v) := ⟨_, rfl⟩
    have hxl : x.length = stripAtxTrailing v := by rw [hx, List.length_take]; omega
    have hv' : v = x ++ (spaces i ++ List.replicate j c!"#" ++ spaces k) := by
      rw [← e, hx, List.take_append_drop]
    rw [← hxl, wp_bind]
    have a0 : At env s p (x ++ (spaces i ++ List.replicate j c!"#" ++ spaces k ++ t)) := by
      rw [hv'] at a; simpa using a
    have hl := hv
    rw [hv'] at hl
    refine wp_mono (consumeInline_spec fit a0 (reg_closing (OneLine.left hl) ht i j k) (hp h0) (fun _ => hh h0)) ?_
    rintro _ s1 ⟨a1, k1⟩
    have a2 : At env s1 (p ++ x) ((spaces i ++ List.replicate j c!"#" ++ spaces k) ++ t) := a1
    have hlen : v.length = x.length + (i + j + k) := by
      rw [hv']; simp [spaces]; omega
    rw [wp_bind]
    refine at_advance a2 (n := v.length - x.length) (by rw [hlen]; simp [spaces]; omega)
      (.closing (InHeading.append (hh h0) (OneLine.left hl)) rfl ht (by omega)) fun s2 a3 x3 => ?_
    rw [wp_pure]
    refine ⟨rfl, ?_, ?_⟩
    · rw [hv', ← List.append_assoc]; exact a3
    · rw [hv', x3, ← List.append_assoc]
      exact k1.trans (OneLine.right hl) Keeps.rfl
  · rename_i h0
    have : v = [] := List.length_eq_zero_iff.1 (by omega)
    subst this
    rw [wp_pure]
    exact ⟨rfl, by simpa using a, Keeps.rfl⟩

theorem begins_of {p : Bytes} (q : Quotes (lineOf p)) (k : Nat) : Begins (p ++ spaces k) k :=
  ⟨_, q, lineOf_append (OneLine.spaces k)⟩

theorem prevOk_blank {p : Bytes} {c : UInt8} (h : Blank c) : PrevOk (p ++ [c]) 0 := by
  intro _ d hd
  simp at hd
  subst hd
  unfold Blank at h
  simp at h
  rcases h with rfl | rfl <;> unfold Alnum Letter DecDigit <;> decide

theorem Blank.inLine {c : UInt8} (h : Blank c) : InLine c := by
  unfold Blank at h
  simp at h
  rcases h with rfl | rfl <;> unfold InLine <;> decide

theorem blank_iff (c : UInt8) : (c == c!" " || c == c!"\t") = true ↔ Blank c := by
  unfold Blank
  simp

theorem expectAtxHeading_spec {p v t : Bytes} (fit : CommentsFit env.src) (a : At env s p (v ++ t)) (hv : OneLine v)
    (ht : Eol t) (q : Quotes (lineOf p)) : wp (expectAtxHeading v.length) (Done env s p v t) env s := by
  unfold expectAtxHeading
  rw [wp_bind, wp_rem, a.rem, mem_take_self]
  obtain ⟨k, v1, hk, rfl, hkl⟩ := lead_split v
  dsimp only
  rw [hkl, get_spaces, drop_spaces]
  split
  · rw [wp_pure]; exact Or.inr ⟨rfl, rfl⟩
  rename_i h1
  have h1 : v1.head? = some c!"#" := Classical.byContradiction h1
  obtain ⟨v2, hn6, hv2⟩ := run_split6 c!"#" 6 v1
  generalize hn : runOf c!"#" (v1.take 6) = n at *
  have hn1 : 1 ≤ n := by
    cases v1 with
    | nil => simp at h1
    | cons c v1 =>
      simp at h1
      subst h1
      rw [← hn]
      show 1 ≤ runOf c!"#" (c!"#" :: v1.take 5)
      obtain ⟨t, e, ht⟩ := run_split c!"#" (c!"#" :: v1.take 5)
      apply Classical.byContradiction
      intro h0
      rw [show runOf c!"#" (c!"#" :: v1.take 5) = 0 by omega] at e
      simp at e
      rw [← e] at ht
      simp at ht
  have hg : (spaces k ++ v1)[k + n]? = v2.head? := by
    rw [hv2, List.getElem?_append_right (by simp [spaces]), List.getElem?_append_right (by simp [spaces]),
      List.head?_eq_getElem?]
    simp [spaces]
  rw [hg]
  have hl1 := OneLine.right hv
  rw [hv2] at hl1
  have hl2 := OneLine.right hl1
  split
  · rw [wp_pure]; exact Or.inr ⟨rfl, rfl⟩
  rename_i h2
  have a0 : At env s p (spaces k ++ (List.replicate n c!"#" ++ v2 ++ t)) := by
    rw [hv2] at a; simpa using a
  rw [wp_bind]
  refine at_advance a0 (spaces_length k).symm (gap_spaces k) fun s1 a1 x1 => ?_
  have a1' : At env s1 (p ++ spaces k) (List.replicate n c!"#" ++ (v2 ++ t)) := by simpa using a1
  rw [wp_bind]
  refine at_emit a1' (by simp) (by simp; omega) (by decide)
    (.heading (begins_of q k) hk rfl ⟨hn1, hn6⟩ ?_) fun s2 a2 x2 => ?_
  · intro c hc
    cases v2 with
    | nil => exact Eol.white ht hc
    | cons d v2 =>
      simp at hc
      subst hc
      refine White.of_blank ?_
      rw [← blank_iff]
      simp at h2 ⊢
      grind
  have hlen : (spaces k ++ v1).length = k + n + v2.length := by
    rw [hv2]; simp [spaces]; omega
  have hln : OneLine (spaces k ++ List.replicate n c!"#") := OneLine.append (OneLine.spaces k) (OneLine.left hl1)
  split
  · rename_i h3
    cases v2 with
    | nil => simp at h3
    | cons c v2 =>
      have hc : Blank c := by rw [← blank_iff]; simpa using h3
      have a2' : At env s2 (p ++ spaces k ++ List.replicate n c!"#") ([c] ++ (v2 ++ t)) := by simpa using a2
      rw [wp_bind]
      refine at_advance a2' rfl (gap_white (by simpa using White.of_blank hc)) fun s3 a3 x3 => ?_
      rw [hlen, show k + n + (c :: v2).length - (k + n + 1) = v2.length by simp; omega]
      refine wp_mono (headingContent_spec fit a3 (OneLine.right (v := [c]) hl2) ht (fun _ => ?_) (fun _ => prevOk_blank hc)) ?_
      · refine ⟨lineOf p, k, n, c, [], q, hk, hn1, hn6, hc, ?_⟩
        rw [show p ++ spaces k ++ List.replicate n c!"#" ++ [c] = p ++ (spaces k ++ List.replicate n c!"#" ++ [c]) by simp,
          lineOf_append (OneLine.append hln (by intro d hd; simp at hd; subst hd; exact Blank.inLine hc))]
        simp
      · rintro b s4 ⟨rfl, a4, k4⟩
        refine Or.inl ⟨rfl, ?_, ?_⟩
        · rw [hv2]; simpa using a4
        · rw [x3, x2, x1] at k4
          rw [hv2]; simpa using k4
  · rename_i h3
    have : v2 = [] := by
      cases v2 with
      | nil => rfl
      | cons c v2 => simp at h2 h3; grind
    subst this
    rw [hlen, show k + n + ([] : Bytes).length - (k + n) = ([] : Bytes).length by simp]
    refine wp_mono (headingContent_spec (v := []) fit a2 hl2 ht (by simp) (by simp)) ?_
    rintro b s4 ⟨rfl, a4, k4⟩
    refine Or.inl ⟨rfl, ?_, ?_⟩
    · rw [hv2]; simpa using a4
    · rw [x2, x1] at k4
      rw [hv2]; simpa using k4

theorem expectThematicBreak_spec {p v t : Bytes} (a : At env s p (v ++ t)) (hv : OneLine v)
    (ht : Eol t) (q : Quotes (lineOf p)) : wp (expectThematicBreak v.length) (Done env s p v t) env s := by
  unfold expectThematicBreak
  rw [wp_bind, wp_rem, a.rem, mem_take_self]
  obtain ⟨k, v1, hk, rfl, hkl⟩ := lead_split v
  dsimp only
  rw [hkl, drop_spaces]
  cases v1 with
  | nil => simp only []; rw [wp_pure]; exact Or.inr ⟨rfl, rfl⟩
  | cons c v1 =>
    simp only []
    split
    · rw [wp_pure]; exact Or.inr ⟨rfl, rfl⟩
    split
    · rw [wp_pure]; exact Or.inr ⟨rfl, rfl⟩
    split
    · rw [wp_pure]; exact Or.inr ⟨rfl, rfl⟩
    rename_i h1 h2 h3
    have a0 : At env s p (spaces k ++ (c :: v1 ++ t)) := by simpa using a
    rw [wp_bind]
    refine at_advance a0 (spaces_length k).symm (gap_spaces k) fun s1 a1 x1 => ?_
    rw [wp_bind, show (spaces k ++ c :: v1).length - k = (c :: v1).length by simp [spaces]]
    refine at_emit a1 rfl (by simp) (by decide)
      (.break_ (c := c) (begins_of q k) hk (longest_line (OneLine.right hv) ht) ?_ ?_ rfl ?_) fun s2 a2 x2 => ?_
    · simp at h1 ⊢
      grind
    · rw [mem_take_self]
      intro d hd
      rw [Bool.not_eq_true, Bool.not_eq_false'] at h2
      have := List.all_eq_true.1 h2 d hd
      unfold Blank
      simp at this ⊢
      grind
    · rw [mem_take_self]
      exact Nat.le_of_not_lt h3
    rw [wp_pure]
    refine Or.inl ⟨rfl, by simpa using a2, ?_⟩
    rw [x2, x1]; exact Keeps.rfl

theorem expectIndentedCode_spec {p v t : Bytes} (a : At env s p (v ++ t)) (hv : OneLine v)
    (ht : Eol t) (q : Quotes (lineOf p)) : wp (expectIndentedCode v.length) (Done env s p v t) env s := by
  unfold expectIndentedCode
  rw [wp_bind, wp_rem, a.rem, mem_take_self]
  have key : ∀ i v', v = i ++ v' → i ∈ [b!"\t", b!"    "] → wp (do
      HM.advance i.length
      HM.emitAdvIf (v.length - i.length) .text_code
      return true) (Done env s p v t) env s := by
    intro i v' hiv hi
    have hw : ∀ c ∈ i, White c := by
      intro c hc
      simp at hi
      unfold White
      rcases hi with rfl | rfl <;> simp at hc <;> subst hc <;> decide
    subst hiv
    have a0 : At env s p (i ++ (v' ++ t)) := by simpa using a
    rw [wp_bind]
    refine at_advance a0 rfl (gap_white hw) fun s1 a1 x1 => ?_
    rw [wp_bind]
    refine at_emitIf a1 (by simp) (by decide) (fun _ => ?_) fun s2 a2 x2 => ?_
    · rw [show (i ++ v').length - i.length = v'.length by simp]
      exact .indentedCode q (lineOf_append (OneLine.left hv)) hi (longest_line (OneLine.right hv) ht)
    rw [wp_pure]
    refine Or.inl ⟨rfl, by simpa using a2, ?_⟩
    rw [x2, x1]; exact Keeps.rfl
  split
  · rw [wp_pure]; exact Or.inr ⟨rfl, rfl⟩
  rename_i h0
  cases v with
  | nil => simp at h0
  | cons c v =>
    split
    · rename_i h1
      have : c = c!"\t" := by simpa using h1
      subst this
      exact key b!"\t" v rfl (by simp)
    split
    · rw [wp_pure]; exact Or.inr ⟨rfl, rfl⟩
    · rename_i h1 h2
      obtain ⟨v1, h3, h4⟩ := run_split6 c!" " 4 (c :: v)
      rw [show runOf c!" " ((c :: v).take 4) = 4 by omega] at h4
      exact key b!"    " v1 h4 (by simp)

theorem listMarker_some {v : Bytes} {n : Nat} (h : listMarker v = n) (h0 : n ≠ 0) : ∃ m c v', v = m ++ c :: v' ∧ Blank c ∧
    m.length = n ∧ (m ∈ [b!"-", b!"+", b!"*"] ∨ ∃ d x, m = d ++ [x] ∧ (∀ c ∈ d, DecDigit c) ∧ 1 ≤ d.length ∧ d.length ≤ 9 ∧
      x ∈ b!".)") := by
  unfold listMarker at h
  cases v with
  | nil => simp at h; omega
  | cons c v =>
    simp only at h
    have fin : ∀ k, (if k ≠ 0 ∧ ((c :: v)[k]?).any (fun c => c == c!" " || c == c!"\t") = true then k else 0) = n →
        k = n ∧ ∃ d v', (c :: v) = (c :: v).take n ++ d :: v' ∧ Blank d ∧ ((c :: v).take n).length = n := by
      intro k hk
      split at hk
      · rename_i h1
        subst hk
        refine ⟨rfl, ?_⟩
        obtain ⟨h1, h2⟩ := h1
        cases hd : (c :: v)[k]? with
        | none => rw [hd] at h2; simp at h2
        | some d =>
          rw [hd] at h2
          obtain ⟨hlt, hd⟩ := List.getElem?_eq_some_iff.1 hd
          refine ⟨d, (c :: v).drop (k + 1), ?_, (blank_iff d).1 (by simpa using h2), by rw [List.length_take]; omega⟩
          rw [← hd, ← List.drop_eq_getElem_cons hlt, List.take_append_drop]
      · omega
    split at h
    · rename_i h1
      obtain ⟨rfl, d, v', h2, h3, h4⟩ := fin 1 h
      refine ⟨_, d, v', h2, h3, h4, Or.inl ?_⟩
      simp
      exact h1
    split at h
    · rename_i h1 h2
      split at h
      · rename_i h3
        obtain ⟨e, d, v', h4, h5, h6⟩ := fin _ h
        refine ⟨_, d, v', h4, h5, h6, Or.inr ?_⟩
        obtain ⟨x, y, g1, g2, g3, g4⟩ := len_split isDigit ((c :: v).take 9)
        rw [← g2] at e h3
        have hx9 : x.length ≤ 9 := by
          have := congrArg List.length g1
          simp at this
          omega
        have hx : (c :: v).take x.length = x := by
          have : ((c :: v).take 9).take x.length = x := by rw [g1, mem_take_self]
          rw [List.take_take, Nat.min_eq_left hx9] at this
          exact this
        refine ⟨x, ((c :: v)[x.length]?).getD 0, ?_, ?_, ?_, hx9, ?_⟩
        · rw [← e, List.take_add_one, hx]
          rcases h3 with h3 | h3 <;> rw [h3] <;> rfl
        · intro c hc
          exact (isDigit_iff' c).1 (g3 c hc)
        · cases x with
          | nil =>
            simp at g1
            rw [← g1] at g4
            have := g4 c rfl
            rw [h2] at this
            simp at this
          | cons => simp
        · rcases h3 with h3 | h3 <;> rw [h3] <;> decide
      · have := (fin 0 h).1
        omega
    · have := (fin 0 h).1
      omega

theorem expectListMarker_spec {p v t : Bytes} (fit : CommentsFit env.src) (a : At env s p (v ++ t)) (hv : OneLine v)
    (ht : Eol t) (q : Quotes (lineOf p)) : wp (expectListMarker v.length) (Done env s p v t) env s := by
  unfold expectListMarker
  rw [wp_bind, wp_rem, a.rem, mem_take_self]
  obtain ⟨v1, hv1, _⟩ := run_split c!" " v
  dsimp only
  generalize runOf c!" " v = k at hv1 ⊢
  have hv1 : v = spaces k ++ v1 := hv1
  subst hv1
  rw [drop_spaces]
  split
  · rw [wp_pure]; exact Or.inr ⟨rfl, rfl⟩
  rename_i h0
  obtain ⟨m, c, v2, rfl, hc, hm, hcase⟩ := listMarker_some rfl h0
  rw [← hm] at h0 ⊢
  have a0 : At env s p (spaces k ++ (m ++ c :: v2 ++ t)) := by simpa using a
  rw [wp_bind]
  refine at_advance a0 (spaces_length k).symm (gap_spaces k) fun s1 a1 x1 => ?_
  have a1' : At env s1 (p ++ spaces k) (m ++ ([c] ++ (v2 ++ t))) := by simpa using a1
  rw [wp_bind]
  refine at_emit a1' rfl (by rintro rfl; simp at h0) (by decide) ?_ fun s2 a2 x2 => ?_
  · rcases hcase with h | ⟨d, x, rfl, hd, h1, h9, hx⟩
    · exact .bullet (c := c) (begins_of q k) (by rw [mem_take_self]; exact h) (by simp) hc
    · exact .number (v := d) (x := x) (c := c) (t := v2 ++ t) (begins_of q k) (by simp) hd ⟨h1, h9⟩ hx hc (by simp)
  rw [wp_bind]
  refine at_advance a2 rfl (gap_white (by simpa using White.of_blank hc)) fun s3 a3 x3 => ?_
  rw [wp_bind, show (spaces k ++ (m ++ c :: v2)).length - (k + m.length) - 1 = v2.length by simp [spaces]; omega]
  have hl : OneLine v2 := OneLine.right (v := [c]) (OneLine.right (OneLine.right hv))
  refine wp_mono (consumeInline_spec fit a3 (reg_eol hl ht) (prevOk_blank hc) (by simp)) ?_
  rintro _ s4 ⟨a4, k4⟩
  rw [wp_pure]
  refine Or.inl ⟨rfl, by simpa using a4, ?_⟩
  rw [x3, x2, x1] at k4
  simpa using k4

theorem prevOk_quotes {p : Bytes} (q : Quotes (lineOf p)) : PrevOk p 0 := by
  intro _ d hd
  have hlast : ∀ x, Quotes x → ∀ d, x.getLast? = some d → ¬ Alnum d := by
    intro x hx d hd
    cases hx with
    | nil => simp at hd
    | quote h hk ht =>
      simp at ht
      rcases ht with rfl | rfl | rfl <;> simp [List.getLast?_append] at hd <;> subst hd <;>
        unfold Alnum Letter DecDigit <;> decide
  by_cases hl : InLine d
  · refine hlast _ q d ?_
    obtain ⟨p', rfl⟩ : ∃ p', p = p' ++ [d] := by
      rw [List.getLast?_eq_some_iff] at hd
      exact hd
    rw [lineOf_append (by intro x hx; simp at hx; subst hx; exact hl)]
    simp
  · have h1 : d = 0x0A ∨ d = 0x0D := by
      unfold InLine at hl
      grind
    rcases h1 with rfl | rfl <;> unfold Alnum Letter DecDigit <;> decide

theorem inlineLine_spec {p v t : Bytes} (fit : CommentsFit env.src) (a : At env s p (v ++ t)) (hv : OneLine v)
    (ht : Eol t) (q : Quotes (lineOf p)) : wp (inlineLine v.length) (fun b s' => b = true ∧ Whole env s p v t s') env s := by
  unfold inlineLine
  rw [wp_bind]
  refine wp_mono (consumeInline_spec fit a (reg_eol hv ht) (prevOk_quotes q) (by simp)) ?_
  rintro _ s1 h
  rw [wp_pure]
  exact ⟨rfl, h⟩

theorem done_or {m m' : HM St Bool} {p v t : Bytes} {Q : Bool → HS St → Prop} (h : wp m (Done env s p v t) env s)
    (hQ : ∀ s', Whole env s p v t s' → Q true s') (h' : wp m' Q env s) : wp (HM.or m m') Q env s := by
  refine wp_step_or (wp_mono h ?_)
  rintro b s1 (⟨rfl, h1⟩ | ⟨rfl, rfl⟩)
  · simp only [if_true]
    exact hQ s1 h1
  · simpa only [Bool.false_eq_true, if_false] using h'

theorem quoted_spec {again : Nat → HM St Bool} {n : Nat}
    (ok : ∀ s p v t, CommentsFit env.src → At env s p (v ++ t) → v.length < n → OneLine v → Eol t → Quotes (lineOf p) →
      wp (again v.length) (Done env s p v t) env s)
    {p v t : Bytes} (fit : CommentsFit env.src) (a : At env s p (v ++ t)) (hn : v.length < n) (hv : OneLine v)
    (ht : Eol t) (q : Quotes (lineOf p)) : wp (quoted again v.length) (fun b s' => b = true ∧ Whole env s p v t s') env s := by
  unfold quoted
  split
  · rename_i h
    have : v = [] := List.length_eq_zero_iff.1 h
    subst this
    rw [wp_pure]
    exact ⟨rfl, by simpa using a, Keeps.rfl⟩
  · have h : ∀ s', Whole env s p v t s' → true = true ∧ Whole env s p v t s' := fun _ h => ⟨rfl, h⟩
    exact done_or (expectAtxHeading_spec fit a hv ht q) h (done_or (expectThematicBreak_spec a hv ht q) h
      (done_or (expectListMarker_spec fit a hv ht q) h (done_or (ok s p v t fit a hn hv ht q) h
        (done_or (expectIndentedCode_spec a hv ht q) h (inlineLine_spec fit a hv ht q)))))

theorem blockquote_ok : ∀ (depth : Nat) (env : HEnv) (s : HS St) (p v t : Bytes), CommentsFit env.src →
    At env s p (v ++ t) → v.length < depth → OneLine v → Eol t → Quotes (lineOf p) →
    wp (blockquote depth v.length) (Done env s p v t) env s
  | 0 => fun _ _ _ _ _ _ _ h => by omega
  | depth + 1 => by
    intro env s p v t fit a hd hv ht q
    unfold blockquote
    rw [wp_bind, wp_rem, a.rem, mem_take_self]
    obtain ⟨k, v1, hk, rfl, hkl⟩ := lead_split v
    dsimp only
    rw [hkl, get_spaces]
    split
    · rw [wp_pure]; exact Or.inr ⟨rfl, rfl⟩
    rename_i h1
    cases v1 with
    | nil => simp at h1
    | cons c v1 =>
      have : c = c!">" := by simpa using h1
      subst this
      have a0 : At env s p (spaces k ++ (b!">" ++ (v1 ++ t))) := by simpa using a
      rw [wp_bind]
      refine at_advance a0 (spaces_length k).symm (gap_spaces k) fun s1 a1 x1 => ?_
      rw [wp_bind]
      refine at_emit a1 rfl (by simp) (by decide) (.quote (begins_of q k) hk rfl) fun s2 a2 x2 => ?_
      rw [wp_bind, wp_rem, a2.rem]
      have hl1 : OneLine v1 := OneLine.right (v := b!">") (OneLine.right hv)
      have hl0 : OneLine (spaces k ++ b!">") := OneLine.append (OneLine.spaces k) (by unfold OneLine InLine; decide)
      have hlen : (spaces k ++ c!">" :: v1).length = k + 1 + v1.length := by simp [spaces]; omega
      rw [hlen]
      have ok := fun s p v t fit a hd hv ht q => blockquote_ok depth env s p v t fit a hd hv ht q
      split
      · rename_i h2
        obtain ⟨h2, h3⟩ := h2
        cases v1 with
        | nil => simp at h2
        | cons c v1 =>
          have hc : Blank c := by
            unfold Blank; simpa using h3
          have a2' : At env s2 (p ++ spaces k ++ b!">") ([c] ++ (v1 ++ t)) := by simpa using a2
          rw [wp_bind]
          refine at_advance a2' rfl (gap_white (by simpa using White.of_blank hc)) fun s3 a3 x3 => ?_
          rw [show k + 1 + (c :: v1).length - (k + 1 + 1) = v1.length by simp; omega]
          refine wp_mono (quoted_spec ok fit a3 (by simp at hlen hd; omega) (OneLine.right (v := [c]) hl1) ht ?_) ?_
          · rw [show p ++ spaces k ++ b!">" ++ [c] = p ++ (spaces k ++ b!">" ++ [c]) by simp,
              lineOf_append (OneLine.append hl0 (by intro d hd; simp at hd; subst hd; exact Blank.inLine hc))]
            have := Quotes.quote (t := [c]) q hk (by unfold Blank at hc; simp at hc; rcases hc with rfl | rfl <;> simp)
            simpa using this
          · rintro b s4 ⟨rfl, a4, k4⟩
            refine Or.inl ⟨rfl, by simpa using a4, ?_⟩
            rw [x3, x2, x1] at k4
            simpa using k4
      · rw [show k + 1 + v1.length - (k + 1) = v1.length by omega]
        refine wp_mono (quoted_spec ok fit a2 (by omega) hl1 ht ?_) ?_
        · rw [show p ++ spaces k ++ b!">" = p ++ (spaces k ++ b!">") by simp, lineOf_append hl0]
          have := Quotes.quote (t := []) q hk (by simp)
          simpa using this
        · rintro b s4 ⟨rfl, a4, k4⟩
          refine Or.inl ⟨rfl, by simpa using a4, ?_⟩
          rw [x2, x1] at k4
          simpa using k4

theorem fence_char {c : UInt8} (h : c ∈ b!"`~") : InLine c ∧ ¬ Blank c ∧ c ≠ c!" " := by
  simp at h
  rcases h with rfl | rfl <;> unfold InLine Blank <;> decide

theorem expectFencedCodeOpen_spec {p v t : Bytes} (a : At env s p (v ++ t)) (hv : OneLine v) (ht : Eol t)
    (hp : lineOf p = []) : wp (expectFencedCodeOpen v.length) (fun b s' => (b = true ∧ At env s' (p ++ v) t ∧
      ∃ c m, s'.ext = { s.ext with fenced := true, fenceChar := c, fenceLength := m } ∧
        ∀ e, Terminator e → Fenced c m (p ++ v ++ e)) ∨ (b = false ∧ s' = s)) env s := by
  unfold expectFencedCodeOpen
  rw [wp_bind, wp_rem, a.rem, mem_take_self]
  obtain ⟨k, v1, hk, rfl, hkl⟩ := lead_split v
  dsimp only
  rw [hkl, drop_spaces]
  cases v1 with
  | nil => simp only []; rw [wp_pure]; exact Or.inr ⟨rfl, rfl⟩
  | cons c v1 =>
    simp only []
    obtain ⟨x, hx, hx'⟩ := run_split c (c :: v1)
    generalize runOf c (c :: v1) = n at hx ⊢
    rw [hx] at a hv ⊢
    rw [List.drop_left' (by simp)]
    split
    · rw [wp_pure]; exact Or.inr ⟨rfl, rfl⟩
    split
    · rw [wp_pure]; exact Or.inr ⟨rfl, rfl⟩
    split
    · rw [wp_pure]; exact Or.inr ⟨rfl, rfl⟩
    rename_i h1 h2 h3
    have hlx := OneLine.right (OneLine.right hv)
    have hi : Info c n x := by
      refine ⟨by simp; grind, by omega, hx', ?_, hlx⟩
      intro hc hm
      exact h3 ⟨hc, by simpa using hm⟩
    have hpk : lineOf (p ++ spaces k) = spaces k := by rw [lineOf_append (OneLine.spaces k), hp]; rfl
    rw [wp_bind]
    refine at_modify a fun s0 a0 x0 => ?_
    have a0' : At env s0 p (spaces k ++ (List.replicate n c ++ x ++ t)) := by simpa using a0
    rw [wp_bind]
    refine at_advance a0' (spaces_length k).symm (gap_spaces k) fun s1 a1 x1 => ?_
    have a1' : At env s1 (p ++ spaces k) (List.replicate n c ++ (x ++ t)) := by simpa using a1
    rw [wp_bind]
    refine at_emit a1' (by simp) (by simp; omega) (by decide)
      (.fenceOpen (c := c) (i := x) (t := t) hpk hk (by simp) hi ht) fun s2 a2 x2 => ?_
    rw [wp_bind]
    refine at_advance a2 (by simp [spaces]) (.info (c := c) (m := n) (i := x) (t := t) ?_ hk rfl hi ht (by simp [spaces]))
      fun s3 a3 x3 => ?_
    · rw [lineOf_append (OneLine.left (OneLine.right hv)), hpk]
    rw [wp_pure]
    refine Or.inl ⟨rfl, by simpa using a3, c, n, by rw [x3, x2, x1, x0], ?_⟩
    intro e he
    have := Fenced.open_ hp hk hi he
    simpa using this

/-! ## Lines -/

theorem line_split (r : Bytes) : ∃ v e t, r = v ++ (e ++ t) ∧ (matchCrlfLine r).content = v.length ∧
    (matchCrlfLine r).terminator = e.length ∧ OneLine v ∧ (Terminator e ∨ (e = [] ∧ t = [])) ∧ Eol (e ++ t) := by
  obtain ⟨v, e, t, ⟨h1, h2, h3⟩, h4, h5⟩ := C22_match_crlf_line r
  refine ⟨v, e, t, by simpa using h1, h4, h5, h2, ?_, ?_⟩
  · unfold Terminator
    simp
    grind
  · intro c hc
    unfold InLine
    rcases h3 with rfl | rfl | ⟨rfl, _⟩ | ⟨rfl, rfl⟩ <;> simp at hc <;> subst hc <;> decide

theorem Terminator.white {e : Bytes} (h : Terminator e) : ∀ c ∈ e, White c := by
  unfold Terminator at h
  simp at h
  unfold White
  rcases h with rfl | rfl | rfl <;> decide

/-- What is known about the state of the highlighter at the beginning of a line. -/
structure ExtOk (x : St) (p : Bytes) : Prop where
  fenced : x.fenced = true → Fenced x.fenceChar x.fenceLength p ∧ x.comment = false
  comment : x.comment = true → InComment p

/-- The state at the beginning of a line. -/
def Inv (env : HEnv) (s : HS St) : Prop :=
  ∃ p r, At env s p r ∧ (r ≠ [] → lineOf p = [] ∧ ExtOk s.ext p)

theorem advance_terminator {p e t : Bytes} {n : Nat} (a : At env s p (e ++ t)) (hn : n = e.length)
    (he : Terminator e ∨ (e = [] ∧ t = [])) (hx : ∀ e, Terminator e → ExtOk s.ext (p ++ e)) (m : Nat) (hm : (e ++ t).length < m) :
    wp (HM.advance n) (fun _ s' => Inv env s' ∧ s'.rem.length < m) env s := by
  refine at_advance a hn (hn ▸ gap_white ?_) fun s1 a1 x1 => ?_
  · rcases he with h | ⟨rfl, _⟩
    · exact Terminator.white h
    · simp
  · refine ⟨⟨_, _, a1, fun ht => ?_⟩, by rw [a1.rem]; simp at hm; omega⟩
    rcases he with h | ⟨_, rfl⟩
    · exact ⟨lineOf_end h, by rw [x1]; exact hx e h⟩
    · simp at ht

theorem ExtOk.of_keeps {x x' : St} {p e : Bytes} (h1 : x.fenced = false) (h2 : x.comment = false) (k : Keeps x x' p)
    (he : Terminator e) : ExtOk x' (p ++ e) := by
  rcases k with rfl | ⟨rfl, o⟩
  · exact ⟨by simp [h1], by simp [h2]⟩
  · refine ⟨by simp [h1], fun _ => ?_⟩
    obtain ⟨u, v, rfl, hv⟩ := o
    exact .open_ hv he

theorem consumeBlockLine_spec {p r : Bytes} (fit : CommentsFit env.src) (a : At env s p r) (hr : r ≠ [])
    (hp : lineOf p = []) (h1 : s.ext.fenced = false) (h2 : s.ext.comment = false) :
    wp consumeBlockLine (fun _ s' => Inv env s' ∧ s'.rem.length < r.length) env s := by
  unfold consumeBlockLine
  rw [wp_bind, wp_rem, a.rem]
  obtain ⟨v, e, t, rfl, hc, ht, hv, he, heol⟩ := line_split r
  dsimp only
  rw [hc, ht, mem_take_self]
  split
  · rename_i hb
    have hb : ∀ c ∈ v, White c := by
      intro c hc
      exact (isWhitespace_iff c).1 (List.all_eq_true.1 hb c hc)
    have a0 : At env s p ((v ++ e) ++ t) := by simpa using a
    refine at_advance a0 (by simp) ?_ fun s1 a1 x1 => ?_
    · have : Gap p ((v ++ e) ++ t) (v ++ e).length := gap_white (by
        intro c hc
        rcases List.mem_append.1 hc with hc | hc
        · exact hb c hc
        · rcases he with he | ⟨rfl, _⟩
          · exact Terminator.white he c hc
          · simp at hc)
      simpa using this
    · refine ⟨⟨_, _, a1, fun ht => ?_⟩, ?_⟩
      · rcases he with h | ⟨_, rfl⟩
        · refine ⟨by rw [← List.append_assoc]; exact lineOf_end h, ?_⟩
          rw [x1]
          exact ⟨by simp [h1], by simp [h2]⟩
        · simp at ht
      · rw [a1.rem]
        have : 0 < (v ++ (e ++ t)).length := List.length_pos_iff.2 hr
        rcases he with h | ⟨rfl, rfl⟩
        · unfold Terminator at h
          simp at h
          rcases h with rfl | rfl | rfl <;> simp <;> omega
        · simpa using this
  · rename_i hb
    have q : Quotes (lineOf p) := by rw [hp]; exact .nil
    have hvne : v ≠ [] := by rintro rfl; exact hb rfl
    have hlen : (e ++ t).length < (v ++ (e ++ t)).length := by
      have := List.length_pos_iff.2 hvne
      simp only [List.length_append]; omega
    have main : wp (HM.or (expectAtxHeading v.length) (HM.or (expectThematicBreak v.length)
        (HM.or (expectFencedCodeOpen v.length) (HM.or (expectListMarker v.length)
          (HM.or (expectBlockquote v.length) (HM.or (expectIndentedCode v.length)
            (inlineLine v.length))))))) (fun _ s' => At env s' (p ++ v) (e ++ t) ∧
              ∀ e, Terminator e → ExtOk s'.ext (p ++ v ++ e)) env s := by
      have h : ∀ s', Whole env s p v (e ++ t) s' → At env s' (p ++ v) (e ++ t) ∧
              ∀ e, Terminator e → ExtOk s'.ext (p ++ v ++ e) := fun s' h => ⟨h.1, fun e he => .of_keeps h1 h2 h.2 he⟩
      refine done_or (expectAtxHeading_spec fit a hv heol q) h (done_or (expectThematicBreak_spec a hv heol q) h ?_)
      refine wp_step_or (wp_mono (expectFencedCodeOpen_spec a hv heol hp) ?_)
      rintro b s1 (⟨rfl, a1, c, m, x1, hf⟩ | ⟨rfl, rfl⟩)
      · simp only [if_true]
        refine ⟨a1, fun e he => ?_⟩
        rw [x1]
        exact ⟨fun _ => ⟨hf e he, h2⟩, by simp [h2]⟩
      · simp only [Bool.false_eq_true, if_false]
        exact done_or (expectListMarker_spec fit a hv heol q) h (done_or (blockquote_ok _ env _ p v _ fit a (by omega) hv heol q) h
          (done_or (expectIndentedCode_spec a hv heol q) h (wp_mono (inlineLine_spec fit a hv heol q) fun _ s' h' => h s' h'.2)))
    rw [wp_bind]
    refine wp_mono main ?_
    rintro _ s1 ⟨a1, hx⟩
    exact advance_terminator a1 rfl he hx _ hlen

theorem Fenced.facts {c : UInt8} {m : Nat} {p : Bytes} (h : Fenced c m p) : c ∈ b!"`~" ∧ 3 ≤ m := by
  induction h with
  | open_ hu hk h he => exact ⟨h.fence, h.long⟩
  | line h hl he no ih => exact ih

theorem line_unique {v t v' t' : Bytes} (h : v ++ t = v' ++ t') (hv : OneLine v) (ht : Eol t) (hv' : OneLine v')
    (ht' : Eol t') : v = v' ∧ t = t' := by
  rcases List.append_eq_append_iff.1 h with ⟨x, h1, h2⟩ | ⟨x, h1, h2⟩
  · cases x with
    | nil => simp at h1 h2; exact ⟨h1.symm, h2⟩
    | cons c x =>
      exfalso
      refine ht c (by rw [h2]; rfl) ?_
      exact hv' c (by rw [h1]; simp)
  · cases x with
    | nil => simp at h1 h2; exact ⟨h1, h2.symm⟩
    | cons c x =>
      exfalso
      refine ht' c (by rw [h2]; rfl) ?_
      exact hv c (by rw [h1]; simp)

theorem not_closes {c : UInt8} {m : Nat} {v w : Bytes} (hc : c ∈ b!"`~") (hm : 3 ≤ m) (hv : OneLine v) (hw : Eol w)
    (h : ¬ (m ≤ runOf c (v.drop (matchLeadSpaces v)) ∧ (v.drop (matchLeadSpaces v + runOf c (v.drop (matchLeadSpaces v)))).all
      (fun c => c == c!" " || c == c!"\t") = true)) :
    ∀ k n b t, Closes c m k n b t → v ++ w ≠ spaces k ++ List.replicate n c ++ b ++ t := by
  intro k n b t hC e
  apply h
  have hf := fence_char hc
  obtain ⟨e, _⟩ := line_unique e hv hw (OneLine.append (OneLine.append (OneLine.spaces k) (oneLine_replicate hf.1))
    (fun x hx => Blank.inLine (hC.blank x hx))) hC.eol
  have hn := hC.long
  have e' : v = spaces k ++ (List.replicate n c ++ b) := by rw [e]; simp
  have hl : matchLeadSpaces v = k := lead_of e' hC.lead (by
    obtain ⟨n, rfl⟩ : ∃ j, n = j + 1 := ⟨n - 1, by omega⟩
    simp [List.replicate_succ]
    exact hf.2.2)
  rw [hl]
  have hr : runOf c (v.drop k) = n := by
    rw [e', drop_spaces]
    refine run_of rfl fun hb => ?_
    exact hf.2.1 (hC.blank c (List.mem_of_mem_head? hb))
  rw [hr]
  refine ⟨hn, ?_⟩
  rw [e, List.drop_left' (by simp [spaces])]
  rw [List.all_eq_true]
  intro x hx
  exact (blank_iff x).2 (hC.blank x hx)

theorem consumeFencedLine_spec {p r : Bytes} (a : At env s p r) (hr : r ≠ [])
    (h1 : s.ext.comment = false) (hF : Fenced s.ext.fenceChar s.ext.fenceLength p) :
    wp consumeFencedLine (fun _ s' => Inv env s' ∧ s'.rem.length < r.length) env s := by
  unfold consumeFencedLine
  rw [wp_bind, wp_rem, wp_bind, wp_get, a.rem]
  obtain ⟨v, e, t, rfl, hc, ht, hv, he, heol⟩ := line_split r
  dsimp only
  rw [hc, ht, mem_take_self]
  generalize hfc : s.ext.fenceChar = c at *
  generalize hfl : s.ext.fenceLength = m at *
  obtain ⟨hcc, hm⟩ := Fenced.facts hF
  have hfcc := fence_char hcc
  split
  · rename_i h
    obtain ⟨k, v1, hk, rfl, hkl⟩ := lead_split v
    rw [hkl, drop_spaces] at h
    rw [hkl, drop_spaces]
    obtain ⟨b, hb, hb'⟩ := run_split c v1
    generalize runOf c v1 = n at h hb ⊢
    subst hb
    obtain ⟨h2, h3⟩ := h
    rw [← List.append_assoc, List.drop_left' (by simp [spaces])] at h3
    have hbl : ∀ x ∈ b, Blank x := fun x hx => (blank_iff x).1 (List.all_eq_true.1 h3 x hx)
    rw [wp_bind]
    refine at_modify a fun s0 a0 x0 => ?_
    have a0' : At env s0 p (spaces k ++ (List.replicate n c ++ b ++ (e ++ t))) := by simpa using a0
    rw [wp_bind]
    refine at_advance a0' (spaces_length k).symm (gap_spaces k) fun s1 a1 x1 => ?_
    have a1' : At env s1 (p ++ spaces k) (List.replicate n c ++ (b ++ (e ++ t))) := by simpa using a1
    rw [wp_bind]
    refine at_emit a1' (by simp) (by simp; omega) (by decide)
      (.fenceClose (c := c) (b := b) (t := e ++ t) hF rfl (by simp) ⟨hk, h2, hbl, heol⟩) fun s2 a2 x2 => ?_
    rw [wp_bind]
    have hlb : (spaces k ++ (List.replicate n c ++ b)).length - k - n = b.length := by simp [spaces]
    refine at_advance a2 hlb (hlb ▸ gap_white fun x hx => White.of_blank (hbl x hx)) fun s3 a3 x3 => ?_
    refine advance_terminator a3 rfl he (fun e' _ => ?_) _ (by simp; omega)
    rw [x3, x2, x1, x0]
    exact ⟨by simp, by simp [h1]⟩
  · rename_i h
    rw [wp_bind]
    refine at_emitIf a rfl (by decide) (fun _ => ?_) fun s1 a1 x1 => ?_
    · exact .fencedCode hF (longest_line hv heol) (not_closes hcc hm hv heol h)
    · have hx : ∀ e, Terminator e → ExtOk s1.ext (p ++ v ++ e) := by
        intro e he
        rw [x1]
        refine ⟨fun _ => ⟨?_, h1⟩, by simp [h1]⟩
        rw [hfc, hfl]
        refine .line hF hv he ?_
        have := not_closes (w := []) hcc hm hv (by intro _ h; simp at h) h
        simpa using this
      cases v with
      | cons d v => exact advance_terminator a1 rfl he hx _ (by simp; omega)
      | nil =>
        refine at_advance a1 rfl (gap_white ?_) fun s2 a2 x2 => ?_
        · rcases he with h | ⟨rfl, _⟩
          · exact Terminator.white h
          · simp
        · rcases he with h | ⟨rfl, rfl⟩
          · refine ⟨⟨_, _, a2, fun _ => ⟨lineOf_end h, by rw [x2]; exact hx e h⟩⟩, ?_⟩
            rw [a2.rem]
            unfold Terminator at h
            simp at h
            rcases h with rfl | rfl | rfl <;> simp only [List.length_append, List.length_cons, List.length_nil] <;> omega
          · simp at hr

theorem occurs_line {v w : Bytes} {k : Nat} (hw : Eol w) (h : OccursAt b!"-->" (v ++ w) k) (hk : k < v.length) :
    OccursAt b!"-->" v k := by
  refine occurs_prefix h ?_
  apply Classical.byContradiction
  intro hlt
  have hlt : v.length < k + 3 := by simpa using hlt
  have h0 := occurs_get h (i := v.length - k) (by simp; omega)
  rw [List.getElem?_append_right (by omega), show k + (v.length - k) - v.length = 0 by omega, ← List.head?_eq_getElem?] at h0
  have hd : v.length - k = 1 ∨ v.length - k = 2 := by omega
  rcases hd with hd | hd <;> rw [hd] at h0 <;> exact hw _ h0 (by unfold InLine; decide)

theorem consumeCommentLine_spec {p r : Bytes} (fit : CommentsFit env.src) (a : At env s p r) (hr : r ≠ [])
    (h1 : s.ext.fenced = false) (hC : InComment p) :
    wp consumeCommentLine (fun _ s' => Inv env s' ∧ s'.rem.length < r.length) env s := by
  unfold consumeCommentLine
  rw [wp_bind, wp_rem, a.rem]
  obtain ⟨v, e, t, rfl, hc, ht, hv, he, heol⟩ := line_split r
  dsimp only
  rw [hc, ht, mem_take_self]
  have hf := findSub_spec b!"-->" v
  split
  · rename_i hn
    rw [hn] at hf
    rw [wp_bind]
    refine at_emitIf a rfl (by decide) (fun _ => ?_) fun s1 a1 x1 => ?_
    · refine .commentText (Or.inl hC) (by rw [mem_take_self]; exact hv) ?_ (Or.inr (by rw [List.drop_left]; exact ends_eol heol))
      intro k hk
      apply Classical.byContradiction
      intro hlt
      exact hf k (occurs_line heol hk (by omega))
    · have hx : ∀ e, Terminator e → ExtOk s1.ext (p ++ v ++ e) := by
        intro e he
        rw [x1]
        exact ⟨by simp [h1], fun _ => .line hC hv hf he⟩
      cases v with
      | cons d v => exact advance_terminator a1 rfl he hx _ (by simp; omega)
      | nil =>
        refine at_advance a1 rfl (gap_white ?_) fun s2 a2 x2 => ?_
        · rcases he with h | ⟨rfl, _⟩
          · exact Terminator.white h
          · simp
        · rcases he with h | ⟨rfl, rfl⟩
          · refine ⟨⟨_, _, a2, fun _ => ⟨lineOf_end h, by rw [x2]; exact hx e h⟩⟩, ?_⟩
            rw [a2.rem]
            unfold Terminator at h
            simp at h
            rcases h with rfl | rfl | rfl <;> simp only [List.length_append, List.length_cons, List.length_nil] <;> omega
          · simp at hr
  · rename_i k hk
    rw [hk] at hf
    obtain ⟨⟨x, y, hxy, rfl⟩, hfirst⟩ := hf
    subst hxy
    have hlx := OneLine.left (OneLine.left hv)
    have hly := OneLine.right hv
    have a0 : At env s p (x ++ (b!"-->" ++ (y ++ (e ++ t)))) := by simpa using a
    have first : ∀ k, OccursAt b!"-->" (x ++ (b!"-->" ++ (y ++ (e ++ t)))) k → x.length ≤ k := by
      intro k hk
      apply Classical.byContradiction
      intro hlt
      refine hfirst k (by omega) (occurs_line (w := e ++ t) heol (by simpa using hk) (by simp; omega))
    rw [wp_bind]
    refine at_emitIf a0 rfl (by decide) (fun _ => ?_) fun s1 a1 x1 => ?_
    · exact .commentText (Or.inl hC) (by rw [mem_take_self]; exact hlx) first (Or.inl ⟨x, y ++ (e ++ t), by simp, rfl⟩)
    rw [wp_bind]
    refine at_emit a1 rfl (by simp) (by decide) (.commentClose (Or.inl hC) rfl hlx first (by simp)) fun s2 a2 x2 => ?_
    rw [wp_bind]
    refine at_modify a2 fun s3 a3 x3 => ?_
    rw [wp_bind, show (x ++ b!"-->" ++ y).length - x.length - 3 = y.length by simp]
    refine wp_mono (consumeInline_spec fit a3 (reg_eol hly heol) (prevOk_last rfl) (by simp)) ?_
    rintro _ s4 ⟨a4, k4⟩
    refine advance_terminator a4 rfl he (fun e' he' => ?_) _ (by simp; omega)
    refine ExtOk.of_keeps ?_ ?_ k4 he'
    · rw [x3, x2, x1]; exact h1
    · rw [x3]

theorem line_spec (fit : CommentsFit env.src) (h : Inv env s) (hr : s.rem ≠ []) :
    wp line (fun _ s' => Inv env s' ∧ s'.rem.length < s.rem.length) env s := by
  obtain ⟨p, r, a, hi⟩ := h
  rw [a.rem] at hr ⊢
  obtain ⟨hp, hx⟩ := hi hr
  unfold line
  rw [wp_bind, wp_get]
  split
  · rename_i h1
    obtain ⟨h2, h3⟩ := hx.fenced h1
    exact consumeFencedLine_spec a hr h3 h2
  · rename_i h1
    have h1 : s.ext.fenced = false := by simpa using h1
    split
    · rename_i h2
      exact consumeCommentLine_spec fit a hr h1 (hx.comment h2)
    · rename_i h2
      exact consumeBlockLine_spec fit a hr hp h1 (by simpa using h2)

/-! ## The whole text -/

theorem highlight_tiles (debug : Bool) (opts : Opts) (src : Bytes) (fit : CommentsFit src) :
    ∃ good es, highlight debug opts src = .ok (good, es) ∧ good = true ∧
      Tiles (rules src) src src.length (es.map Emit.token) := by
  refine run_of_wp (P := fun b => b = true) fun s g hr hi hx => ?_
  unfold program
  rw [wp_bind, wp_rem, wp_bind]
  refine wp_whileNotEof (Inv ⟨debug, opts.seen, src⟩) ?_ (by omega) (fun s h hr => line_spec fit h hr) ?_
  · refine ⟨[], src, ⟨g, by rw [hi]; rfl, hr⟩, fun _ => ⟨rfl, ?_⟩⟩
    rw [hx]
    exact ⟨by simp, by simp⟩
  · rintro s1 ⟨p, r, a, _⟩ hr
    rw [wp_pure]
    exact ⟨a.good, hr, rfl⟩

/-- C53.  Every token of Markdown is what its type says. -/
theorem C53_markdown_tokens (debug : Bool) (opts : Opts) (src : Bytes) (fit : CommentsFit src) :
    ∃ es, highlight debug opts src = .ok (true, es) ∧ Tiles (rules src) src src.length (es.map Emit.token) := by
  obtain ⟨_, es, h1, rfl, h2⟩ := highlight_tiles debug opts src fit
  exact ⟨es, h1, h2⟩

/-- A test for `CommentsFit`. -/
def commentsFit : Bytes → Bool
  | [] => true
  | c :: t => (!startsWith (c :: t) b!"<!--" || !ends ((c :: t).drop 4)) && commentsFit t

theorem commentsFit_sound : ∀ {src : Bytes}, commentsFit src = true → CommentsFit src
  | [], _ => by intro u t h; simp at h
  | c :: src, h => by
    unfold commentsFit at h
    simp only [Bool.and_eq_true, Bool.or_eq_true, Bool.not_eq_true'] at h
    intro u t e
    cases u with
    | nil =>
      rcases h.1 with h1 | h1
      · have := (startsWith_iff (s := c :: src) (p := b!"<!--")).2 ⟨t, by simpa using e⟩
        rw [this] at h1
        simp at h1
      · rw [e] at h1
        simpa using h1
    | cons d u =>
      simp at e
      exact commentsFit_sound h.2 u t (by simpa using e.2)

/-- What is highlighted. -/
def tokensOf (src : Bytes) : Except Fault (List Token) :=
  (highlight true {} src).map (fun r => r.2.map Emit.token)

instance : DecidableEq (Except Fault (List Token)) := Html.instDecidableEqExceptFaultListToken

/-- Example text. -/
def sample : Bytes := b!"# _a_ b\n> - `x` ![a](b c)\n```c\n x\n```\n<!-- a\nb --> *c*"

example : tokensOf sample =
    .ok [⟨0, 1, .symbol_formatting⟩, ⟨2, 1, .symbol_formatting⟩, ⟨4, 1, .symbol_formatting⟩, ⟨5, 2, .text_heading⟩,
      ⟨8, 1, .symbol_formatting⟩, ⟨10, 1, .symbol_formatting⟩, ⟨12, 1, .string_delim⟩, ⟨13, 1, .text_code⟩,
      ⟨14, 1, .string_delim⟩, ⟨16, 2, .symbol_formatting⟩, ⟨19, 2, .symbol_formatting⟩, ⟨21, 1, .text_link⟩,
      ⟨24, 1, .symbol_formatting⟩, ⟨26, 3, .string_delim⟩, ⟨31, 2, .text_code⟩, ⟨34, 3, .string_delim⟩,
      ⟨38, 4, .comment_delim⟩, ⟨42, 2, .comment⟩, ⟨45, 2, .comment⟩, ⟨47, 3, .comment_delim⟩,
      ⟨51, 1, .symbol_formatting⟩, ⟨53, 1, .symbol_formatting⟩] := by decide +kernel

/-- The text of the example meets the condition of the theorem. -/
example : CommentsFit sample := commentsFit_sound (by decide +kernel)

/-- A comment that begins at the end of a line makes an assertion fail, and without assertions it adds a
token without text: without the condition, the property does not hold. -/
theorem C53_comments_needed : tokensOf b!"<!--\nx -->" = .error .assert ∧
    ((highlight false {} b!"<!--\nx -->").map fun r => r.2.map Emit.token) =
      .ok [⟨0, 4, .comment_delim⟩, ⟨4, 0, .comment⟩, ⟨5, 2, .comment⟩, ⟨7, 3, .comment_delim⟩] ∧
    ¬ CommentsFit b!"<!--\nx -->" := by
  refine ⟨by decide +kernel, by decide +kernel, fun h => ?_⟩
  have := h [] b!"\nx -->" rfl
  revert this
  decide

/-- Text that is not highlighted as it should be.
* A comment that begins in emphasis ends with it, but then continues in the next line.
* An escaped asterisk ends emphasis. -/
theorem C53_differences :
    tokensOf b!"*<!-- a* b -->\nc\n" = .ok [⟨0, 1, .symbol_formatting⟩, ⟨1, 4, .comment_delim⟩, ⟨5, 2, .comment⟩,
      ⟨7, 1, .symbol_formatting⟩, ⟨15, 1, .comment⟩] ∧
    tokensOf b!"*a\\*" = .ok [⟨0, 1, .symbol_formatting⟩, ⟨3, 1, .symbol_formatting⟩] := by
  decide +kernel

/-! ## Whole characters (C31) -/

theorem ascii_list {l : Bytes} (h : l.all (·.toNat < 0x80) = true) {c : UInt8} (hc : c ∈ l) : c.toNat < 0x80 := by
  simpa using List.all_eq_true.1 h c hc

theorem whole_rep {n : Nat} {c : UInt8} {t : Bytes} (h : c.toNat < 0x80) : Spec.Whole (List.replicate n c ++ t) n := by
  refine .ascii ?_
  rw [List.take_left' (by simp)]
  intro d hd
  rw [List.mem_replicate] at hd
  rw [hd.2]
  exact h

theorem whole_before {u t : Bytes} (h : ∀ c, t.head? = some c → c.toNat < 0x80) : Spec.Whole (u ++ t) u.length := by
  cases t with
  | nil => exact .all (by simp)
  | cons c t => exact .at (c := c) (by simp) (h c rfl)

theorem ascii_eol {t : Bytes} (h : Eol t) {c : UInt8} (hc : t.head? = some c) : c.toNat < 0x80 :=
  InLine.ascii c (h c hc)

theorem ascii_ends {t : Bytes} (h : ends t = true) {c : UInt8} (hc : t.head? = some c) : c.toNat < 0x80 :=
  ascii_list (by decide) (ends_head h hc)

theorem special_ascii {c : UInt8} (h : Special c) : c.toNat < 0x80 := ascii_list (by decide) h

theorem reference_ascii {w : Bytes} (h : Reference w) : ∀ c ∈ w, c.toNat < 0x80 := by
  intro c hc
  cases h with
  | name _ hv =>
    simp at hc
    rcases hc with rfl | hc | rfl
    · decide
    · have := hv c hc
      unfold Alnum Letter DecDigit at this
      omega
    · decide
  | dec _ hv =>
    simp at hc
    rcases hc with rfl | rfl | hc | rfl
    · decide
    · decide
    · have := hv c hc
      unfold DecDigit at this
      omega
    · decide
  | hex hx _ hv =>
    simp at hc
    rcases hc with rfl | rfl | rfl | hc | rfl
    · decide
    · decide
    · exact ascii_list (by decide) hx
    · exact ascii_list (by decide) (hv c hc)
    · decide

theorem link_url_whole {text url title t : Bytes} (h : Link text url title) :
    Spec.Whole (url ++ title ++ b!")" ++ t) url.length := by
  have hd := h.dest
  clear h
  have next : ∀ {l : Bytes}, l.all (·.toNat < 0x80) = true → (∀ c, (title ++ b!")").head? = some c → c ∈ l) →
      Spec.Whole (url ++ title ++ b!")" ++ t) url.length := by
    intro l hl hh
    rw [List.append_assoc, List.append_assoc]
    refine whole_before fun c hc => ascii_list hl (hh c ?_)
    cases title <;> simpa using hc
  generalize he : title ++ b!")" = e at hd
  cases hd with
  | angle hv =>
    rename_i v
    rw [show (b!"<" ++ v ++ b!">").length = (v.length + 1) + 1 by simp]
    exact .after (c := c!">") (by simp) (by decide)
  | half hv ht => exact next (l := b!"<\n") (by decide) (by rw [he]; exact ht)
  | plain hv hh ht =>
    refine next (l := b!") \t\r\n") (by decide) ?_
    rw [he]
    intro c hc
    rcases ht c hc with rfl | h
    · simp
    · exact List.mem_cons_of_mem _ h

theorem tok_whole {p s : Bytes} {n : Nat} {ty : HT} (h : Tok p s n ty) : Spec.Whole s n := by
  have hl : ∀ {s n}, Longest InLine s n → Spec.Whole s n := fun h => .longest InLine.ascii h
  cases h with
  | heading b hk h hn ht => rw [h]; exact whole_rep (by decide)
  | headingText b h e =>
    rcases e with ⟨c, hc, hs⟩ | e
    · exact .at hc (special_ascii hs)
    · cases hd : s[n]? with
      | none => exact .all (by simpa using hd)
      | some c => exact .at hd (ascii_ends e (by rw [List.head?_drop]; exact hd))
  | break_ b hk l hc h first three => exact hl l
  | quote b hk h => exact .text h (by decide)
  | bullet b h hc bc =>
    refine .ascii ?_
    simp at h
    rcases h with h | h | h <;> rw [h] <;> decide
  | number b h hv len hx bc hn =>
    rename_i k v x c t
    subst h hn
    exact .after (c := x) (by simp) (ascii_list (by decide) hx)
  | fenceOpen b hk h hi e => rw [h, List.append_assoc]; exact whole_rep (ascii_list (by decide) hi.fence)
  | fenceClose f h hs hc =>
    rw [hs, List.append_assoc]
    exact whole_rep (ascii_list (by decide) (Fenced.facts f).1)
  | fencedCode f l not => exact hl l
  | indentedCode q h hi l => exact hl l
  | spanOpen h e => rw [e, List.append_assoc, List.append_assoc]; exact whole_rep (by decide)
  | spanText h hp e =>
    rename_i m v t
    obtain ⟨m, rfl⟩ : ∃ j, m = j + 1 := ⟨m - 1, by have := h.pos; omega⟩
    rw [e, List.append_assoc]
    refine whole_before ?_
    simp [List.replicate_succ]
  | spanClose h hp e => rw [e]; exact whole_rep (by decide)
  | linkOpen h e => subst e; exact .ascii (by simp)
  | linkText h hp e => rw [e, List.append_assoc]; exact whole_before (by simp)
  | linkClose h hp e => subst e; exact .ascii (by simp)
  | commentOpen h => exact .text h (by decide)
  | commentText c l first e =>
    rcases e with ⟨a, b, rfl, rfl⟩ | e
    · exact .at (c := c!"-") (by simp) (by decide)
    · cases hd : s[n]? with
      | none => exact .all (by simpa using hd)
      | some c => exact .at hd (ascii_ends e (by rw [List.head?_drop]; exact hd))
  | commentClose c hp l first h => exact .text h (by decide)
  | escape h hc =>
    refine .ascii ?_
    rw [h]
    intro d hd
    simp at hd
    rcases hd with rfl | rfl
    · decide
    · exact ascii_list (by decide) hc
  | reference h => exact .ascii (reference_ascii h)
  | imageBegin h e => subst e; exact .ascii (by simp)
  | linkBegin h e => subst e; exact .ascii (by simp)
  | linkMiddle h hp e => subst e; exact .ascii (by simp [Spec.Markdown.linkEnd])
  | linkUrl h hp e => subst e; exact link_url_whole h
  | linkEnd h hp e => subst e; exact .ascii (by simp)
  | emphasisBegin h e =>
    rw [e, List.append_assoc, List.append_assoc]
    exact whole_rep (ascii_list (by decide) h.mark)
  | emphasisEnd h hp e => rw [e]; exact whole_rep (ascii_list (by decide) h.mark)

theorem gap_whole {p s : Bytes} {n : Nat} (h : Gap p s n) : Spec.Whole s n := by
  cases h with
  | white h => exact .ascii fun c hc => ascii_list (by decide) (h c hc)
  | info b hk h hi e hn => rw [h, hn]; exact whole_before fun c hc => ascii_eol e hc
  | closing b h e hn =>
    rename_i i j k t
    have : n = (spaces i ++ List.replicate j c!"#" ++ spaces k).length := by simp [spaces, hn]; omega
    rw [h, this]
    exact whole_before fun c hc => ascii_eol e hc
  | alt h hp e => rw [e]; exact whole_before (by simp [Spec.Markdown.linkEnd])
  | title h hp e => rw [e, List.append_assoc]; exact whole_before (by simp)
  | plain h e =>
    rcases e with ⟨c, hc, hs⟩ | e
    · exact .at hc (special_ascii hs)
    · cases hd : s[n]? with
      | none => exact .all (by simpa using hd)
      | some c => exact .at hd (ascii_ends e (by rw [List.head?_drop]; exact hd))
  | stray h =>
    cases s with
    | nil => exact .all (by simp)
    | cons c s => exact .ascii (by simpa using special_ascii (h.special c rfl))

theorem rules_whole (src : Bytes) : (rules src).Whole where
  tok := fun _ _ _ h _ => tok_whole h
  gap := fun _ _ h _ => gap_whole h

/-- C31 for Markdown.  The tokens of well-formed text are well-formed text, as is the text around them. -/
theorem C31_markdown_whole (debug : Bool) (opts : Opts) (src : Bytes) (fit : CommentsFit src) (hs : IsUtf8 src) :
    ∃ es, highlight debug opts src = .ok (true, es) ∧ ∀ t ∈ es.map Emit.token, IsUtf8 (src.take t.beg) ∧
      IsUtf8 ((src.drop t.beg).take t.len) ∧ IsUtf8 (src.drop (t.beg + t.len)) := by
  obtain ⟨es, h1, h2⟩ := C53_markdown_tokens debug opts src fit
  exact ⟨es, h1, (h2.utf8 (rules_whole src) hs).2.2⟩

end Markdown

end Ulight
