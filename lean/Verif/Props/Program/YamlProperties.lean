import Verif.Props.Program.YamlScalars
import Verif.Props.Lang.Yaml

/-!
# C58 for YAML: tags and anchors
-/

namespace Ulight.Yaml

open Spec Spec.Yaml

variable {env : HEnv} {x y : St} {a b s t u v w p : Bytes} {ts us vs ps : List Token} {c : UInt8}

theorem reads_each {q : UInt8 → Bool} {ty : HT} (hv : ∀ c ∈ v, q c = true) (hb : ∀ c, b.head? = some c → q c = false) :
    Reads env (emitEach q ty) x v (each ty v.length) b () x := by
  unfold emitEach
  refine reads_rem ?_
  have : ∀ m, v.length < m → Reads env (HM.loop m (fun _ => do
      if ((← HM.rem)[0]?).any q then do
        HM.emitAdv 1 ty
        pure (.inl ())
      else pure (.inr ())) () : HM St Unit) x v (each ty v.length) b () x := by
    induction v with
    | nil =>
      intro m hm
      refine reads_loop_end (by omega) (reads_rem (reads_else ?_ reads_pure))
      rw [List.nil_append, ← List.head?_eq_getElem?]
      intro h
      rw [Option.any_eq_true] at h
      obtain ⟨c, h1, h2⟩ := h
      simp [hb c h1] at h2
    | cons c v ih =>
      intro m hm
      simp only [List.length_cons] at hm
      have h1 : Reads env (HM.emitAdv 1 ty : HM St Unit) x [c] [⟨0, 1, ty⟩] (v ++ b) () x := reads_emit rfl (by simp)
      have h2 : Reads env (do
          if ((← HM.rem)[0]?).any q then do
            HM.emitAdv 1 ty
            pure (.inl ())
          else pure (.inr ()) : HM St (Unit ⊕ Unit)) x [c] [⟨0, 1, ty⟩] (v ++ b) (.inl ()) x :=
        reads_rem (reads_this (by simp [hv c (by simp)]) (h1.bind_last reads_pure))
      exact reads_loop (c := ()) (c' := ()) (by omega) h2 (ih (fun d hd => hv d (by simp [hd])) (m - 1) (by omega))
  exact this _ (by simp; omega)

theorem reads_name (h : NameEnds v b) : Reads env (emitEach (fun c => !isWordEnd c) .name_attr) x v (each .name_attr v.length) b () x := by
  refine reads_each (fun c hc => notWordEnd_iff.2 (h.1 c (by simpa using hc))) fun c hc => ?_
  have := h.2 c (by rw [List.getElem?_append_right (Nat.le_refl _), Nat.sub_self, ← List.head?_eq_getElem?]; exact hc)
  have h1 : ¬ (!isWordEnd c) = true := fun h => this (notWordEnd_iff.1 h)
  simpa using h1

theorem reads_anchor (h : NameEnds v b) : Reads env reference x (b!"&" ++ v) ([⟨0, 1, .name_attr_delim⟩] ++ opt 1 v .name) b () x := by
  unfold reference
  refine reads_rem ?_
  have : nameLength (b!"&" ++ v ++ b) = v.length := by
    unfold nameLength
    exact length_if_not_eq (fun c => wordEnd_iff) (by simpa using h) (by simp)
  rw [this]
  have h2 := (reads_emit (env := env) (x := x) (a := b!"&") (b := v ++ b) (n := 1) (ty := .name_attr_delim) (mode := .normal) rfl (by simp)).bind
    (f := fun _ => (HM.emitAdvIf v.length .name : HM St Unit)) (reads_emitIf rfl)
  exact h2.tokens (by rw [shift_opt']; rfl)

/-- The end of `tag`. -/
def tagRest : HM St Unit := do
  let s ← HM.rem
  let k := Ascii.length_if s isWordChar
  if k > 0 && s[k]? = some c!"!" then do
    HM.emitAdv k .name_attr
    HM.emitAdv 1 .name_attr_delim
    emitEach (fun c => !isWordEnd c) .name_attr
  else emitEach (fun c => !isWordEnd c) .name_attr

/-- The end of a tag in angle brackets. -/
def tagClose : HM St Unit := do
  if startsWith (← HM.rem) b!">" then HM.emitAdv 1 .name_attr_delim else pure ()

theorem tag_eq : tag = (do
    let s ← HM.rem
    HM.hassert (startsWith s b!"!")
    if startsWith s b!"!<" then do
      HM.emitAdv 2 .name_attr_delim
      emitEach (fun c => !(b!">\r\n").contains c) .name_attr
      tagClose
    else if startsWith s b!"!!" then do
      HM.emitAdv 2 .name_attr_delim
      emitEach (fun c => !isWordEnd c) .name_attr
    else do
      HM.emitAdv 1 .name_attr_delim
      tagRest) := rfl

theorem handle_not_end : ∀ c : UInt8, isWordChar c = true → isWordEnd c = false := by apply forall_byte; decide +kernel

theorem starts_second {d : UInt8} (h : c ≠ d) : startsWith (c!"!" :: c :: t) [c!"!", d] = false := by
  rw [Bool.eq_false_iff]
  intro h'
  obtain ⟨u, e⟩ := startsWith_iff.1 h'
  simp at e
  exact h e.1

theorem reads_tag (h : Property p ps b) (hp : p.head? = some c!"!") : Reads env tag x p ps b () x := by
  rw [tag_eq]
  cases h with
  | anchor => simp at hp
  | @verbatim v _ h =>
    refine reads_rem (reads_check (by simp [startsWith]) (reads_this (by simp [startsWith]) ?_))
    have h1 : Reads env (HM.emitAdv 2 .name_attr_delim : HM St Unit) x b!"!<" [⟨0, 2, .name_attr_delim⟩] ((v ++ b!">") ++ b) () x :=
      reads_emit rfl (by simp)
    have h2 : Reads env (emitEach (fun c => !(b!">\r\n").contains c) .name_attr) x v (each .name_attr v.length) (b!">" ++ b) () x :=
      reads_each (fun c hc => by have := h c hc; simpa using this) (by simp)
    have h3 : Reads env tagClose x b!">" [⟨0, 1, .name_attr_delim⟩] b () x := reads_rem (reads_this (by simp [startsWith]) (reads_emit rfl (by simp)))
    have h4 := h1.bind (f := fun _ => (do emitEach (fun c => !(b!">\r\n").contains c) .name_attr; tagClose)) (h2.bind h3)
    exact (h4.tokens (by simp [shift, Nat.add_comm])).text (by simp)
  | @secondary v _ h =>
    refine reads_rem (reads_check (by simp [startsWith]) (reads_else (by simp [startsWith]) (reads_this (by simp [startsWith]) ?_)))
    have h1 : Reads env (HM.emitAdv 2 .name_attr_delim : HM St Unit) x b!"!!" [⟨0, 2, .name_attr_delim⟩] (v ++ b) () x := reads_emit rfl (by simp)
    exact h1.bind (reads_name h)
  | @named u v _ ne hu h =>
    obtain ⟨d, u', rfl⟩ := List.exists_cons_of_ne_nil ne
    have hd : d ≠ c!"<" ∧ d ≠ c!"!" := by
      have : ∀ c : UInt8, isWordChar c = true → c ≠ c!"<" ∧ c ≠ c!"!" := by apply forall_byte; decide +kernel
      exact this d (isWordChar_iff.2 (hu d (by simp)))
    have e1 : b!"!" ++ (d :: u') ++ b!"!" ++ v ++ b = c!"!" :: d :: (u' ++ b!"!" ++ v ++ b) := by simp
    refine reads_rem (reads_check (by simp [startsWith]) (reads_else ?_ (reads_else ?_ ?_)))
    · rw [e1, starts_second hd.1]; simp
    · rw [e1, starts_second hd.2]; simp
    have h1 : Reads env (HM.emitAdv 1 .name_attr_delim : HM St Unit) x b!"!" [⟨0, 1, .name_attr_delim⟩] (((d :: u') ++ (b!"!" ++ v)) ++ b) () x :=
      reads_emit rfl (by simp)
    have hk : Ascii.length_if (((d :: u') ++ (b!"!" ++ v)) ++ b) isWordChar = (d :: u').length := by
      rw [List.append_assoc]
      exact run_length (fun c hc => isWordChar_iff.2 (hu c hc)) (by simp; decide)
    have h2 : Reads env tagRest x ((d :: u') ++ (b!"!" ++ v)) ([⟨0, (d :: u').length, .name_attr⟩] ++
        shift (d :: u').length ([⟨0, 1, .name_attr_delim⟩] ++ shift 1 (each .name_attr v.length))) b () x := by
      unfold tagRest
      refine reads_rem (reads_this ?_ ?_)
      · rw [hk]; simp
      · rw [hk]
        have h3 : Reads env (HM.emitAdv (d :: u').length .name_attr : HM St Unit) x (d :: u') [⟨0, (d :: u').length, .name_attr⟩] ((b!"!" ++ v) ++ b) () x :=
          reads_emit rfl (by simp)
        have h4 : Reads env (HM.emitAdv 1 .name_attr_delim : HM St Unit) x b!"!" [⟨0, 1, .name_attr_delim⟩] (v ++ b) () x := reads_emit rfl (by simp)
        exact h3.bind (f := fun _ => (do HM.emitAdv 1 .name_attr_delim; emitEach (fun c => !isWordEnd c) .name_attr)) (h4.bind (reads_name h))
    refine ((h1.bind h2).tokens ?_).text (by simp)
    simp [shift, Nat.add_comm]
    omega
  | @primary v _ h first hb =>
    have e1 : ∀ d, d ∈ b!"<!" → startsWith (b!"!" ++ v ++ b) [c!"!", d] = false := by
      intro d hd
      rw [Bool.eq_false_iff]
      intro h'
      obtain ⟨u, e⟩ := startsWith_iff.1 h'
      simp at e
      exact first d (by rw [e]; rfl) hd
    refine reads_rem (reads_check (by simp [startsWith]) (reads_else ?_ (reads_else ?_ ?_)))
    · rw [e1 _ (by decide)]; simp
    · rw [e1 _ (by decide)]; simp
    have h1 : Reads env (HM.emitAdv 1 .name_attr_delim : HM St Unit) x b!"!" [⟨0, 1, .name_attr_delim⟩] (v ++ b) () x := reads_emit rfl (by simp)
    have h2 : Reads env tagRest x v (each .name_attr v.length) b () x := by
      unfold tagRest
      refine reads_rem (reads_else ?_ (reads_name h))
      intro hk
      simp at hk
      have hl := length_if_zero_longest (v ++ b) isWordChar _ (fun c => Iff.rfl)
      generalize Ascii.length_if (v ++ b) isWordChar = k at hk hl
      have hx : ¬ ¬ WordEnd c!"!" := by simp [WordEnd]
      rcases Nat.lt_trichotomy k v.length with h3 | h3 | h3
      · have h4 := hk.2
        rw [List.getElem?_append_left h3] at h4
        exact hx (h.1 _ (by simpa using List.mem_of_getElem? h4))
      · have h4 := hk.2
        rw [h3, List.getElem?_append_right (Nat.le_refl _), Nat.sub_self, ← List.head?_eq_getElem?] at h4
        exact hb h4
      · have h4 := hk.2
        have h5 : v.length < (v ++ b).length := by
          have := (List.getElem?_eq_some_iff.1 h4).1
          omega
        have h6 := h.2 _ (List.getElem?_eq_getElem h5)
        have h7 := hl.1 ((v ++ b)[v.length]) (List.mem_take_iff_getElem.2 ⟨v.length, by omega, rfl⟩)
        have h8 : (!isWordEnd ((v ++ b)[v.length])) = true := by rw [handle_not_end _ h7]; rfl
        exact h6 (notWordEnd_iff.1 h8)
    exact h1.bind h2

theorem Property.head (h : Property p ps b) : ∃ c t, p = c :: t ∧ c ∈ b!"!&" := by
  cases h <;> exact ⟨_, _, rfl, by decide⟩

theorem no_property {d : UInt8} (h : b.head? ≠ some d) : startsWith b [d] = false := by
  rw [Bool.eq_false_iff]
  intro h'
  obtain ⟨u, e⟩ := startsWith_iff.1 h'
  exact h (by rw [e]; rfl)

theorem reads_properties (h : Properties p ps b) : Reads env nodeProperties x p ps b () x := by
  unfold nodeProperties
  refine reads_rem ?_
  have : ∀ m p ps, Properties p ps b → p.length < m → Reads env (HM.loop m (fun _ => do
      let a ← propertyTag
      let b ← propertyAnchor
      if a || b then pure (.inl ()) else pure (.inr ())) () : HM St Unit) x p ps b () x := by
    intro m
    induction m with
    | zero => intro p ps _ h; omega
    | succ m ih =>
      intro p ps h hm
      have none_tag : ∀ {s}, s.head? ≠ some c!"!" → Reads env propertyTag x [] [] s false x := fun h =>
        reads_rem (reads_else (by rw [List.nil_append, no_property h]; simp) reads_pure)
      have none_anchor : ∀ {s}, s.head? ≠ some c!"&" → Reads env propertyAnchor x [] [] s false x := fun h =>
        reads_rem (reads_else (by rw [List.nil_append, no_property h]; simp) reads_pure)
      have the_anchor : ∀ {p ps w s}, Property p ps (w ++ s) → p.head? = some c!"&" → (∀ c ∈ w, Blank c) → NotFirst b!" \t" s →
          Reads env propertyAnchor x (p ++ w) ps s true x := by
        intro p ps w s h hp hw hn
        cases h with
        | @anchor v _ h =>
          refine reads_rem (reads_this (by simp [startsWith]) ?_)
          have h1 : Reads env (do inlineWhitespace; pure true) x w [] s true x := (reads_inline hw hn).bind_last reads_pure
          have h2 := (reads_anchor h).bind (f := fun _ => (do inlineWhitespace; pure true)) h1
          exact h2.tokens (by simp [shift])
        | _ => simp at hp
      cases h with
      | nil h =>
        refine reads_loop_end (by omega) ?_
        have h1 : b.head? ≠ some c!"!" := fun e => h _ e (by decide)
        have h2 : b.head? ≠ some c!"&" := fun e => h _ e (by decide)
        exact (none_tag h1).bind_none (a := []) ((none_anchor h2).bind_none (a := []) reads_pure)
      | @cons p ps w a ts _ h hw hn rest =>
        obtain ⟨c, t, hc, hc'⟩ := Property.head h
        simp only [List.length_append] at hm
        have hl : 0 < p.length := by rw [hc]; simp
        simp at hc'
        rcases hc' with rfl | rfl
        · -- a tag
          have h1 : Reads env propertyTag x (p ++ w) ps (a ++ b) true x := by
            refine reads_rem (reads_this (by rw [hc]; simp [startsWith]) ?_)
            have h1 : Reads env (do inlineWhitespace; pure true) x w [] (a ++ b) true x := (reads_inline hw hn).bind_last reads_pure
            have h2 : Reads env tag x p ps (w ++ (a ++ b)) () x := by
              rw [← List.append_assoc]
              exact reads_tag h (by rw [hc]; rfl)
            have h3 := h2.bind (f := fun _ => (do inlineWhitespace; pure true)) h1
            exact h3.tokens (by simp [shift])
          by_cases ha : (a ++ b).head? = some c!"&"
          · cases rest with
            | nil h' => exact absurd (by decide) (h' _ ha)
            | @cons p2 ps2 w2 a2 ts2 _ h2 hw2 hn2 rest2 =>
              obtain ⟨c, t, hc2, -⟩ := Property.head h2
              have hp2 : p2.head? = some c!"&" := by rw [hc2] at ha ⊢; simpa using ha
              simp only [List.length_append] at hm
              have h3 := the_anchor (by rw [← List.append_assoc]; exact h2) hp2 hw2 hn2
              have h4 : Reads env (do
                  let a ← propertyTag
                  let b ← propertyAnchor
                  if a || b then pure (.inl ()) else pure (.inr ()) : HM St (Unit ⊕ Unit)) x (p ++ w ++ (p2 ++ w2)) (ps ++ shift (p ++ w).length ps2)
                  (a2 ++ b) (.inl ()) x := by
                have h5 : Reads env (do
                    let b ← propertyAnchor
                    if true || b then pure (.inl ()) else pure (.inr ()) : HM St (Unit ⊕ Unit)) x (p2 ++ w2) ps2 (a2 ++ b) (.inl ()) x :=
                  h3.bind_last reads_pure
                rw [show p2 ++ w2 ++ a2 ++ b = (p2 ++ w2) ++ (a2 ++ b) by simp] at h1
                exact h1.bind h5
              have h5 := reads_loop (c := ()) (c' := ()) (m := m + 1) (by omega) h4 (ih _ _ rest2 (by omega))
              exact (h5.tokens (by simp [shift_append, shift_shift, Nat.add_assoc])).text (by simp)
          · have h4 : Reads env (do
                let a ← propertyTag
                let b ← propertyAnchor
                if a || b then pure (.inl ()) else pure (.inr ()) : HM St (Unit ⊕ Unit)) x (p ++ w) ps (a ++ b) (.inl ()) x :=
              h1.bind_last ((none_anchor ha).bind_none (a := []) reads_pure)
            have h5 := reads_loop (c := ()) (c' := ()) (m := m + 1) (by omega) h4 (ih _ _ rest (by omega))
            exact h5.tokens (by simp)
        · -- an anchor
          have h3 := the_anchor (by rw [← List.append_assoc]; exact h) (by rw [hc]; rfl) hw hn
          have h4 : Reads env (do
              let a ← propertyTag
              let b ← propertyAnchor
              if a || b then pure (.inl ()) else pure (.inr ()) : HM St (Unit ⊕ Unit)) x (p ++ w) ps (a ++ b) (.inl ()) x :=
            (none_tag (by rw [hc]; simp)).bind_none (h3.bind_last reads_pure)
          have h5 := reads_loop (c := ()) (c' := ()) (m := m + 1) (by omega) h4 (ih _ _ rest (by omega))
          exact h5.tokens (by simp)
  exact this _ p ps h (by simp; omega)

end Ulight.Yaml
