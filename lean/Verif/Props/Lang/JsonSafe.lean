import Verif.Props.Lang.JsonMatch
import Verif.Props.Lang.JsCommon
import Verif.Hl.Safe

/-!
# JSON: every token says something true about its text
-/

namespace Ulight.Json

open Spec Spec.Json

variable {env : HEnv} {s : HS Unit}

theorem isWhitespace_mem {c : UInt8} (h : isWhitespace c = true) :
    c ∈ ([0x20, 0x09, 0x0A, 0x0C, 0x0D] : Bytes) := by
  simp [isWhitespace] at h ⊢
  grind

theorem lineComment_expect : Expect rules expectLineComment := by
  intro env s g
  unfold expectLineComment
  simp only [wp_bind, wp_rem]
  rcases Js.matchLineComment_spec s.rem with ⟨_, h⟩ | ⟨body, rest, ⟨hs, _, _⟩, h⟩
  · simp [h, Moved.refl g]
  · rw [h, if_pos (by omega)]
    simp only [wp_bind]
    have hl := congrArg List.length hs
    simp at hl
    refine wp_emitAdv g (by omega) (by omega) (by decide) ?_ ?_
    · rw [hs]; exact .commentDelim (by simp)
    intro s1 g1 r1 i1 _
    refine wp_emitAdvIf g1 (by rw [r1]; simp; omega) (by decide) (fun _ => .comment) ?_
    rintro s2 ⟨g2, r2, i2, _⟩
    rw [wp_pure]
    exact ⟨⟨g2, by omega⟩, fun _ => by omega⟩

/-- Emitting a block comment and advancing. -/
theorem blockComment_expect : Expect rules expectBlockComment := by
  intro env s g
  unfold expectBlockComment
  simp only [wp_bind, wp_rem]
  have hlen := g.len
  have hdrop : ∀ m, env.src.drop (s.idx + m) = s.rem.drop m := by
    intro m; rw [GoodAt.rem g, List.drop_drop]
  rcases Js.matchBlockComment_spec s.rem with ⟨_, h⟩ | ⟨body, rest, ⟨hs, _⟩, h⟩ | ⟨body, ⟨hs, _⟩, h⟩
  · simp [h, Moved.refl g]
  · rw [h, if_pos (by simp)]
    have hl := congrArg List.length hs
    simp at hl
    simp only [wp_bind, wp_index, emitWhen, if_true]
    refine wp_emitAt g (by omega) (by omega) (by decide) ?_ ?_
    · rw [← GoodAt.rem g, hs]; exact .commentDelim (by simp)
    intro s1 g1 r1 i1 _
    refine wp_emitIf g1 (by omega) (by decide) (fun _ => .comment) ?_
    intro s2 g2 r2 i2 _
    have e : s.idx + 2 + (body.length + 4 - 2 - 2) = s.idx + (body.length + 4) - 2 := by omega
    rw [e] at g2
    refine wp_emitAt g2 (by omega) (by omega) (by decide) ?_ ?_
    · rw [show s.idx + (body.length + 4) - 2 = s.idx + (2 + body.length) by omega, hdrop, hs]
      have : List.drop (2 + body.length) (b!"/*" ++ body ++ b!"*/" ++ rest) = b!"*/" ++ rest := by
        rw [List.append_assoc, List.drop_left' (by simp; omega)]
      rw [this]
      exact .commentDelim (by simp)
    intro s3 g3 r3 i3 _
    refine wp_advanceAt g3 (by rw [r3, r2, r1]; omega) ?_
    intro s4 g4 r4 i4 _
    rw [wp_pure]
    refine ⟨⟨g4.good (by omega), by omega⟩, fun _ => by omega⟩
  · rw [h, if_pos (by simp)]
    have hl := congrArg List.length hs
    simp at hl
    simp only [wp_bind, wp_index, emitWhen, Bool.false_eq_true, if_false, wp_pure]
    refine wp_emitAt g (by omega) (by omega) (by decide) ?_ ?_
    · rw [← GoodAt.rem g, hs]; exact .commentDelim (by simp)
    intro s1 g1 r1 i1 _
    refine wp_emitIf g1 (by omega) (by decide) (fun _ => .comment) ?_
    intro s2 g2 r2 i2 _
    refine wp_advanceAt g2 (by rw [r2, r1]; omega) ?_
    intro s4 g4 r4 i4 _
    refine ⟨⟨g4.good (by omega), by omega⟩, fun _ => by omega⟩

theorem whitespace_gap (r : Bytes) : rules.gap r (matchWhitespace r) := by
  show ∀ c ∈ r.take (matchWhitespace r), _
  rw [matchWhitespace_eq, take_length_takeWhile]
  intro c hc
  exact isWhitespace_mem (List.all_eq_true.1 (List.all_takeWhile (p := isWhitespace) (l := r)) c hc)

theorem matchWhitespace_le (r : Bytes) : matchWhitespace r ≤ r.length := by
  rw [matchWhitespace_eq]
  exact (List.takeWhile_prefix _).length_le

theorem consumeWs_safe (cm : Bool) : Safe rules (consumeWs cm) := by
  intro env s g
  unfold consumeWs
  simp only [wp_bind, wp_rem]
  refine Safe.loop ?_ g (by omega)
  intro _ env s g
  unfold wsStep
  simp only [wp_bind, wp_rem]
  refine wp_advance g (matchWhitespace_le _) (whitespace_gap _) ?_
  intro s1 g1 r1 i1 _
  have m1 : Moved rules env s s1 := ⟨g1, by omega⟩
  cases cm with
  | false => simpa using m1
  | true =>
    simp only [if_true, wp_bind]
    refine wp_mono ((lineComment_expect.or blockComment_expect) env s1 g1) ?_
    rintro b s2 ⟨m2, h2⟩
    cases b with
    | true => simpa using ⟨m1.trans m2, by have := h2 rfl; omega⟩
    | false => simpa using m1.trans m2

theorem stringEscape_safe (hr : s.rem ≠ []) (g : Good rules env s) :
    wp stringEscape (fun _ s' => Moved rules env s s' ∧ s.idx < s'.idx) env s := by
  unfold stringEscape
  simp only [wp_bind, wp_rem, wp_lift]
  obtain ⟨e, h1, h2, h3⟩ := matchEscape_ok s.rem
  refine ⟨e, h1, ?_⟩
  refine wp_ite (fun h => ?_) (fun h => ?_)
  · refine wp_emitAdv g (by omega) h2 (by cases e.value <;> simp) ?_ ?_
    · cases hv : e.value with
      | none => exact .error
      | some v => exact .escape (h3 h (by simp [hv]))
    · intro s1 g1 r1 i1 _
      exact ⟨⟨g1, by omega⟩, by omega⟩
  · refine wp_emitAdv g (by omega) (List.length_pos_iff.2 hr) (by decide) .error ?_
    intro s1 g1 r1 i1 _
    exact ⟨⟨g1, by omega⟩, by omega⟩

/-- The type of plain text. -/
def plainType (property : Bool) : HT := if property then .markup_attr else .string

/-- The pending text of a string. -/
def Pending (property : Bool) (u : Bytes) : Prop :=
  ∀ c ∈ u, Plain c ∨ (property = true ∧ c = c!"\"")

theorem Pending.tok {property : Bool} {u : Bytes} (h : Pending property u) :
    Tok u (plainType property) := by
  cases property with
  | true => exact .attr fun c hc => by have := h c hc; simpa using this
  | false => exact .string fun c hc => by have := h c hc; simpa using this

theorem string_loop (property : Bool) {fuel : Nat} {n : Nat} (g : Good rules env s)
    (hn : n ≤ s.rem.length) (hp : Pending property (s.rem.take n)) (hf : s.rem.length - n < fuel) :
    wp (HM.loop fuel (stringStep property) n)
      (fun b s' => b = true ∧ Moved rules env s s' ∧ (0 < n → s.idx < s'.idx)) env s := by
  refine wp_loop (fun n' s' => Moved rules env s s' ∧ (0 < n → s.idx < s'.idx + n') ∧
    n' ≤ s'.rem.length ∧ Pending property (s'.rem.take n'))
    (fun n' s' => s'.rem.length - n') ?_ fuel n s ⟨.refl g, by omega, hn, hp⟩ hf
  clear hn hp hf
  rintro n' s1 ⟨m1, h0, hn, hp⟩
  have g1 := m1.good
  have hty : (if property = true then HT.markup_attr else HT.string) = plainType property := rfl
  have hnone : plainType property ≠ .none := by cases property <;> decide
  unfold stringStep
  simp only [hty, wp_bind, wp_rem]
  have flush : ∀ {Q : Unit → HS Unit → Prop}, (∀ s', Consumes rules env s1 n' s' → Q () s') →
      wp (HM.emitAdvIf n' (plainType property)) Q env s1 :=
    fun k => wp_emitAdvIf g1 hn hnone (fun _ => hp.tok) k
  cases hc : s1.rem[n']? with
  | none =>
    simp only [wp_bind]
    refine flush ?_
    intro s2 c2
    have := c2.moved.le
    have := c2.2.2.1
    rw [wp_pure]
    exact ⟨rfl, m1.trans c2.moved, by omega⟩
  | some c =>
    have hlt : n' < s1.rem.length := by
      rw [List.getElem?_eq_some_iff] at hc
      exact hc.1
    have hd : s1.rem.drop n' = c :: s1.rem.drop (n' + 1) := by
      rw [List.getElem?_eq_some_iff] at hc
      rw [List.drop_eq_getElem_cons hlt, hc.2]
    have ht : s1.rem.take (n' + 1) = s1.rem.take n' ++ [c] := by
      rw [List.take_add_one, hc]
      rfl
    simp only
    refine wp_ite (fun h => ?_) (fun hq => wp_ite (fun h => ?_) (fun hnl => wp_ite (fun h => ?_)
      (fun hb => wp_ite (fun h => ?_) (fun hctl => ?_))))
    · subst h
      refine wp_ite (fun h => ?_) (fun h => ?_)
      · subst h
        simp only [wp_bind]
        refine wp_emitAdvIf g1 (by omega) hnone (fun _ => ?_) ?_
        · refine Pending.tok (property := true) ?_
          rw [ht]
          intro c hc
          simp at hc
          rcases hc with hc | rfl
          · exact hp c hc
          · exact Or.inr ⟨rfl, rfl⟩
        · intro s2 c2
          have := c2.2.2.1
          rw [wp_pure]
          exact ⟨rfl, m1.trans c2.moved, by omega⟩
      · simp only [wp_bind]
        refine flush ?_
        intro s2 c2
        have := c2.2.2.1
        refine wp_emitAdv c2.1 (by omega) (by rw [c2.2.1, hd]; simp) (by decide) ?_ ?_
        · rw [c2.2.1, hd]
          exact .quote
        · intro s3 g3 r3 i3 _
          rw [wp_pure]
          exact ⟨rfl, m1.trans (c2.moved.trans ⟨g3, by omega⟩), by omega⟩
    · simp only [wp_bind]
      refine flush ?_
      intro s2 c2
      have := c2.2.2.1
      rw [wp_pure]
      exact ⟨rfl, m1.trans c2.moved, by omega⟩
    · simp only [wp_bind]
      refine flush ?_
      intro s2 c2
      have := c2.2.2.1
      refine wp_mono (stringEscape_safe (by rw [c2.2.1, hd]; simp) c2.1) ?_
      rintro _ s3 ⟨m3, h3⟩
      rw [wp_pure]
      have := m3.good.len
      have := g1.len
      refine ⟨⟨m1.trans (c2.moved.trans m3), by omega, by omega, by simp [Pending]⟩, by omega⟩
    · simp only [wp_bind]
      refine flush ?_
      intro s2 c2
      have := c2.2.2.1
      refine wp_emitAdv c2.1 (by omega) (by rw [c2.2.1, hd]; simp) (by decide) .error ?_
      intro s3 g3 r3 i3 _
      have := g3.len
      have := g1.len
      rw [wp_pure]
      exact ⟨⟨m1.trans (c2.moved.trans ⟨g3, by omega⟩), by omega, by omega, by simp [Pending]⟩, by omega⟩
    · rw [wp_pure]
      refine ⟨⟨m1, by omega, by omega, ?_⟩, by omega⟩
      rw [ht]
      intro c' hc'
      simp at hc'
      rcases hc' with hc' | rfl
      · exact hp c' hc'
      · refine Or.inl ⟨?_, hq, hb⟩
        rw [UInt8.lt_iff_toNat_lt] at hctl
        simpa using hctl

theorem string_expect (property : Bool) : Expect rules (expectString property) := by
  intro env s g
  unfold expectString
  simp only [wp_bind, wp_rem]
  cases h : startsWith s.rem b!"\"" with
  | false => simpa using Moved.refl g
  | true =>
    obtain ⟨t, ht⟩ := startsWith_one h
    simp only [Bool.not_true, Bool.false_eq_true, if_false]
    refine wp_ite (fun hp => ?_) (fun hp => ?_)
    · subst hp
      refine wp_mono (string_loop true g (by rw [ht]; simp) ?_ (by omega)) ?_
      · rw [ht]
        intro c hc
        simp at hc
        exact Or.inr ⟨rfl, hc⟩
      · rintro b s' ⟨_, m, h⟩
        exact ⟨m, fun _ => h (by omega)⟩
    · simp only [wp_bind]
      refine wp_emitAdv g (by omega) (by rw [ht]; simp) (by decide) (by rw [ht]; exact .quote) ?_
      intro s1 g1 r1 i1 _
      refine wp_mono (string_loop false g1 (by omega) (by simp [Pending])
        (by have := g.len; have := g1.len; omega)) ?_
      rintro b s' ⟨_, m, h⟩
      have := m.le
      exact ⟨⟨m.good, by omega⟩, fun _ => by omega⟩

theorem number_expect : Expect rules expectNumber := by
  intro env s g
  unfold expectNumber
  simp only [wp_bind, wp_rem]
  obtain ⟨h1, _, h3⟩ := matchNumber_spec s.rem
  refine wp_ite (fun h => ?_) (fun h => ?_)
  · simp only [wp_bind]
    refine wp_emitAdv g (by omega) h1 (by split <;> decide) ?_ ?_
    · cases he : (matchNumber s.rem).erroneous with
      | true => exact .error
      | false => exact .number (h3 h he)
    · intro s1 g1 r1 i1 _
      rw [wp_pure]
      exact ⟨⟨g1, by omega⟩, fun _ => by omega⟩
  · simpa using Moved.refl g

theorem literal_expect : Expect rules expectTrueFalseNull := by
  intro env s g
  unfold expectTrueFalseNull
  simp only [wp_bind, wp_rem]
  obtain ⟨h1, h2, h3, h4⟩ := matchIdentifier_spec s.rem
  generalize matchIdentifier s.rem = r at *
  obtain ⟨n, ty⟩ := r
  simp only at *
  refine wp_ite (fun h => ?_) (fun h => ?_)
  · simp only [wp_bind]
    refine wp_emitAdv g (by omega) h1 (by cases ty <;> decide) ?_ ?_
    · show Tok (s.rem.take n) _
      cases ty with
      | normal => exact .error
      | true_ => rw [h3 rfl]; exact .bool (by simp)
      | false_ => rw [h4 rfl]; exact .bool (by simp)
      | null => rw [h2 rfl]; exact .null
    · intro s1 g1 r1 i1 _
      simpa using (⟨g1, by omega⟩ : Moved rules env s s1)
  · simpa using Moved.refl g

theorem atEnd_safe (cm : Bool) (g : Good rules env s) :
    wp (atEnd cm) (fun b s' => Moved rules env s s' ∧ (b = false → s'.rem ≠ [])) env s := by
  unfold atEnd
  simp only [wp_bind, wp_rem, wp_pure]
  refine wp_mono (consumeWs_safe cm env s g) ?_
  intro _ s1 m1
  refine ⟨m1, fun h => ?_⟩
  simp at h
  exact h.1.1

theorem ignore_safe {m : HM Unit Bool} (h : Safe rules m) : Safe rules (ignore m) :=
  Safe.bind h fun _ => Safe.pure _

theorem punc_safe {c : UInt8} {ty : HT} {mode : Mode} {t : Bytes} (g : Good rules env s)
    (h : s.rem = c :: t) (hty : ty ≠ .none) (htok : Tok [c] ty) :
    wp (HM.emitAdv 1 ty mode) (fun _ s' => Moved rules env s s' ∧ s.idx < s'.idx) env s := by
  refine wp_emitAdv g (by omega) (by rw [h]; simp) hty (by rw [h]; exact htok) ?_
  intro s1 g1 r1 i1 _
  exact ⟨⟨g1, by omega⟩, by omega⟩

theorem member_safe (cm : Bool) {v : HM Unit Bool} (hv : ∀ s', s.idx < s'.idx → Good rules env s' →
    wp v (fun _ s'' => Moved rules env s' s'') env s') (g : Good rules env s) :
    wp (consumeMember cm v) (fun _ s' => Moved rules env s s') env s := by
  unfold consumeMember
  rw [wp_bind]
  refine wp_mono (atEnd_safe cm g) ?_
  rintro b s1 ⟨m1, _⟩
  refine wp_ite (fun _ => by simpa using m1) (fun _ => ?_)
  rw [wp_bind]
  refine wp_mono (ignore_safe (string_expect true).safe env s1 m1.good) ?_
  intro _ s2 m2
  have m2 := m1.trans m2
  rw [wp_bind]
  refine wp_mono (atEnd_safe cm m2.good) ?_
  rintro b s3 ⟨m3, _⟩
  have m3 := m2.trans m3
  refine wp_ite (fun _ => by simpa using m3) (fun _ => ?_)
  simp only [wp_bind, wp_rem]
  refine wp_ite (fun hc => ?_) (fun _ => by simpa using m3)
  obtain ⟨t, ht⟩ := startsWith_one hc
  rw [wp_bind]
  refine wp_mono (punc_safe m3.good ht (by decide) (.punc (by simp))) ?_
  rintro _ s4 ⟨m4, h4⟩
  have := m3.le
  have m4 := m3.trans m4
  rw [wp_bind]
  refine wp_mono (atEnd_safe cm m4.good) ?_
  rintro b s5 ⟨m5, _⟩
  have := m5.le
  have m5 := m4.trans m5
  refine wp_ite (fun _ => by simpa using m5) (fun _ => ?_)
  simp only [wp_bind, ignore, wp_pure]
  refine wp_mono (hv s5 (by omega) m5.good) ?_
  intro _ s6 m6
  refine wp_mono (consumeWs_safe cm env s6 m6.good) ?_
  intro _ s7 m7
  exact m5.trans (m6.trans m7)

theorem object_expect (cm : Bool) {v : HM Unit Bool} (g : Good rules env s)
    (hv : ∀ s', s.idx < s'.idx → Good rules env s' →
      wp v (fun _ s'' => Moved rules env s' s'') env s') :
    wp (expectObject cm v) (fun b s' => Moved rules env s s' ∧ (b = true → s.idx < s'.idx)) env s := by
  unfold expectObject
  simp only [wp_bind, wp_rem]
  cases h : startsWith s.rem b!"{" with
  | false => simpa using Moved.refl g
  | true =>
    obtain ⟨t, ht⟩ := startsWith_one h
    simp only [Bool.not_true, Bool.false_eq_true, if_false, wp_bind]
    refine wp_mono (punc_safe g ht (by decide) (.brace (by simp))) ?_
    rintro _ s1 ⟨m1, h1⟩
    refine wp_mono (Q := fun _ s' => Moved rules env s1 s') ?_
      (fun b s' m => ⟨m1.trans m, fun _ => by have := m.le; omega⟩)
    refine wp_loop (fun _ s' => Moved rules env s1 s') (fun _ s' => s'.rem.length) ?_ _ () s1
      (.refl m1.good) (by have := m1.length g; omega)
    intro _ s2 m2
    have := m2.le
    unfold objectStep
    simp only [wp_bind, wp_eof]
    refine wp_ite (fun _ => by simpa using m2) (fun he => ?_)
    rw [wp_bind]
    refine wp_mono (member_safe cm (fun s' h g => hv s' (by omega) g) m2.good) ?_
    intro _ s3 m3
    have m3' := m2.trans m3
    have hl2 := m2.good.len
    have hl3 := m3.good.len
    have := m3.le
    unfold objectNext
    simp only [wp_bind, wp_rem]
    refine wp_ite (fun hc => ?_) (fun _ => wp_ite (fun hc => ?_) (fun _ => wp_ite (fun hc => ?_)
      (fun hc => ?_)))
    · obtain ⟨t, ht⟩ := startsWith_one hc
      rw [wp_bind]
      refine wp_mono (punc_safe m3.good ht (by decide) (.brace (by simp))) ?_
      rintro _ s4 ⟨m4, h4⟩
      rw [wp_pure]
      exact m3'.trans m4
    · obtain ⟨t, ht⟩ := startsWith_one hc
      rw [wp_bind]
      refine wp_mono (punc_safe m3.good ht (by decide) (.punc (by simp))) ?_
      rintro _ s4 ⟨m4, h4⟩
      have := m4.good.len
      rw [wp_pure]
      exact ⟨m3'.trans m4, by omega⟩
    · match hr : s3.rem, hc with
      | c :: t, _ =>
        rw [wp_bind]
        refine wp_mono (punc_safe m3.good hr (by decide) .error) ?_
        rintro _ s4 ⟨m4, h4⟩
        have := m4.good.len
        rw [wp_pure]
        exact ⟨m3'.trans m4, by omega⟩
    · rw [wp_pure]
      have h3 : s3.rem = [] := by simpa using hc
      have h2 : s2.rem ≠ [] := by simpa using he
      have := List.length_pos_iff.2 h2
      exact ⟨m3', by simp [h3]; omega⟩

theorem array_expect (cm : Bool) {v : HM Unit Bool} (g : Good rules env s)
    (hv : ∀ s', s.idx < s'.idx → Good rules env s' →
      wp v (fun b s'' => Moved rules env s' s'' ∧ (b = true → s'.idx < s''.idx)) env s') :
    wp (expectArray cm v) (fun b s' => Moved rules env s s' ∧ (b = true → s.idx < s'.idx)) env s := by
  unfold expectArray
  simp only [wp_bind, wp_rem]
  cases h : startsWith s.rem b!"[" with
  | false => simpa using Moved.refl g
  | true =>
    obtain ⟨t, ht⟩ := startsWith_one h
    simp only [Bool.not_true, Bool.false_eq_true, if_false, wp_bind]
    refine wp_mono (punc_safe g ht (by decide) (.square (by simp))) ?_
    rintro _ s1 ⟨m1, h1⟩
    refine wp_mono (Q := fun _ s' => Moved rules env s1 s') ?_
      (fun b s' m => ⟨m1.trans m, fun _ => by have := m.le; omega⟩)
    refine wp_loop (fun _ s' => Moved rules env s1 s') (fun _ s' => s'.rem.length) ?_ _ () s1
      (.refl m1.good) (by have := m1.length g; omega)
    intro _ s2 m2
    have := m2.le
    unfold arrayStep
    simp only [wp_bind, wp_eof]
    refine wp_ite (fun _ => by simpa using m2) (fun he => ?_)
    rw [wp_bind]
    refine wp_mono (consumeWs_safe cm env s2 m2.good) ?_
    intro _ s3 m3
    have m3' := m2.trans m3
    have hl2 := m2.good.len
    have hl3 := m3.good.len
    have := m3.le
    simp only [wp_bind, wp_rem]
    refine wp_ite (fun hc => ?_) (fun _ => wp_ite (fun hc => ?_) (fun _ => ?_))
    · obtain ⟨t, ht⟩ := startsWith_one hc
      rw [wp_bind]
      refine wp_mono (punc_safe m3.good ht (by decide) (.square (by simp))) ?_
      rintro _ s4 ⟨m4, h4⟩
      rw [wp_pure]
      exact m3'.trans m4
    · obtain ⟨t, ht⟩ := startsWith_one hc
      rw [wp_bind]
      refine wp_mono (punc_safe m3.good ht (by decide) (.punc (by simp))) ?_
      rintro _ s4 ⟨m4, h4⟩
      have := m4.good.len
      rw [wp_pure]
      exact ⟨m3'.trans m4, by omega⟩
    · rw [wp_bind]
      refine wp_mono (hv s3 (by omega) m3.good) ?_
      rintro b s4 ⟨m4, h4⟩
      have := m4.good.len
      have := m4.le
      have m4' := m3'.trans m4
      refine wp_ite (fun hb => ?_) (fun hb => ?_)
      · rw [wp_pure]
        have := h4 hb
        exact ⟨m4', by omega⟩
      · simp only [wp_bind, wp_eof]
        refine wp_ite (fun hc => ?_) (fun hc => ?_)
        · match hr : s4.rem, hc with
          | c :: t, _ =>
            rw [wp_bind]
            refine wp_mono (punc_safe m4.good hr (by decide) .error) ?_
            rintro _ s5 ⟨m5, h5⟩
            have := m5.good.len
            rw [wp_pure]
            exact ⟨m4'.trans m5, by omega⟩
        · rw [wp_pure]
          have h3 : s4.rem = [] := by simpa using hc
          have h2 : s2.rem ≠ [] := by simpa using he
          have := List.length_pos_iff.2 h2
          exact ⟨m4', by simp [h3]; omega⟩

theorem wp_or {a b : HM Unit Bool} (ha : wp a (fun b s' => Moved rules env s s' ∧
    (b = true → s.idx < s'.idx)) env s)
    (hb : ∀ s', Moved rules env s s' → wp b (fun b s'' => Moved rules env s' s'' ∧
      (b = true → s'.idx < s''.idx)) env s') :
    wp (HM.or a b) (fun b s' => Moved rules env s s' ∧ (b = true → s.idx < s'.idx)) env s := by
  unfold HM.or
  rw [wp_bind]
  refine wp_mono ha ?_
  rintro r s1 ⟨m1, h1⟩
  refine wp_ite (fun hr => ?_) (fun _ => ?_)
  · rw [wp_pure]
    exact ⟨m1, fun _ => h1 hr⟩
  · refine wp_mono (hb s1 m1) ?_
    rintro r s2 ⟨m2, h2⟩
    have := m1.le
    exact ⟨m1.trans m2, fun h => by have := h2 h; omega⟩

theorem value_expect (cm : Bool) (fuel : Nat) (s : HS Unit) (g : Good rules env s)
    (hf : s.rem.length < fuel) :
    wp (expectValue cm fuel) (fun b s' => Moved rules env s s' ∧ (b = true → s.idx < s'.idx)) env s := by
  induction fuel generalizing s with
  | zero => omega
  | succ fuel ih =>
    unfold expectValue
    have hv : ∀ s1, Moved rules env s s1 → ∀ s', s1.idx < s'.idx → Good rules env s' →
        wp (expectValue cm fuel) (fun b s'' => Moved rules env s' s'' ∧ (b = true → s'.idx < s''.idx))
          env s' := by
      intro s1 m1 s' h g'
      refine ih s' g' ?_
      have := m1.le
      have := g.len
      have := g'.len
      omega
    refine wp_or (string_expect false env s g) fun s1 m1 => ?_
    refine wp_or (number_expect env s1 m1.good) fun s2 m2 => ?_
    refine wp_or (object_expect cm m2.good fun s' h g' =>
      wp_mono (hv s2 (m1.trans m2) s' h g') fun _ _ h => h.1) fun s3 m3 => ?_
    exact wp_or (array_expect cm m3.good (hv s3 (m1.trans (m2.trans m3)))) fun s4 m4 =>
      literal_expect env s4 m4.good

theorem run_safe (cm : Bool) (s : HS Unit) (g : Good rules env s) :
    wp (run cm) (fun b s' => Good rules env s' ∧ b = true) env s := by
  unfold run
  rw [wp_bind]
  refine wp_mono (consumeWs_safe cm env s g) ?_
  intro _ s1 m1
  simp only [wp_bind, wp_rem, ignore, wp_pure]
  refine wp_mono (value_expect cm _ s1 m1.good (by omega)) ?_
  rintro _ s2 ⟨m2, _⟩
  refine wp_mono (consumeWs_safe cm env s2 m2.good) ?_
  intro _ s3 m3
  exact ⟨m3.good, trivial⟩

/-- Highlighting JSON succeeds for every text; the tokens say what `Spec.Json.rules` promises, up to
the end of the document. -/
theorem highlight_tiles (debug : Bool) (opts : Opts) (src : Bytes) :
    ∃ es p, highlight debug opts src = .ok (true, es) ∧ p ≤ src.length ∧
      Tiles rules src p (es.map Emit.token) := by
  obtain ⟨good, es, p, h1, rfl, h2, h3⟩ := run_of_wp_prefix (R := rules) (m := run (!opts.strict))
    (ext := ()) (debug := debug) (opts := opts) (src := src) (P := (· = true))
    fun s g _ _ _ => run_safe _ s g
  exact ⟨es, p, h1, h2, h3⟩

/-- The same for JSON with comments. -/
theorem highlightC_tiles (debug : Bool) (opts : Opts) (src : Bytes) :
    ∃ es p, highlightC debug opts src = .ok (true, es) ∧ p ≤ src.length ∧
      Tiles rules src p (es.map Emit.token) := by
  obtain ⟨good, es, p, h1, rfl, h2, h3⟩ := run_of_wp_prefix (R := rules) (m := run true)
    (ext := ()) (debug := debug) (opts := opts) (src := src) (P := (· = true))
    fun s g _ _ _ => run_safe _ s g
  exact ⟨es, p, h1, h2, h3⟩

end Ulight.Json
