import Verif.Props.Program.CppMatch

/-!
# C58 for C and C++: literals
-/

namespace Ulight.Cpp

open Spec Spec.Cpp Utf8

variable {cpp : Bool} {q : UInt8} {env : HEnv} {x : Bool}

/-! ## Identifiers -/

/-- How the word `w` is highlighted. -/
def wordType (cpp strict : Bool) (fb : Bytes → HT) (w : Bytes) : HT :=
  ((byCode w).filter (fun e => inMask cpp strict e.2)).elim (fb w) Prod.fst

theorem wordType_keyword {strict : Bool} {fb : Bytes → HT} {w : Bytes} {ty : HT} (h : Keyword cpp strict w ty) :
    wordType cpp strict fb w = ty := by
  obtain ⟨src, h1, h2⟩ := h
  rw [← byCode_iff] at h1
  rw [← inMask_iff] at h2
  simp [wordType, h1, h2, Option.filter]

theorem wordType_other {strict : Bool} {fb : Bytes → HT} {w : Bytes} (h : ∀ ty, ¬ Keyword cpp strict w ty) :
    wordType cpp strict fb w = fb w := by
  unfold wordType
  generalize hb : (byCode w).filter (fun e => inMask cpp strict e.2) = o
  cases o with
  | none => rfl
  | some e =>
    rw [Option.filter_eq_some_iff, byCode_iff, inMask_iff] at hb
    exact absurd ⟨e.2, hb.1, hb.2⟩ (h e.1)

theorem wp_identifier {fb : Bytes → HT} {w b : Bytes} {i : Nat} {out : List Emit} (hw : w ≠ [])
    (h : matchIdentifier (w ++ b) = w.length) (hl : i + (w ++ b).length = env.src.length) {Q : Bool → HS Bool → Prop}
    (hQ : Q true ⟨b, i + w.length, out ++ [⟨i, w.length, wordType cpp env.opts.strict fb w, .normal⟩], false⟩) :
    wp (expectIdentifier cpp fb) Q env ⟨w ++ b, i, out, x⟩ := by
  unfold expectIdentifier
  rw [wp_bind, wp_rem, wp_bind, wp_opts]
  dsimp only
  rw [h, if_neg (by simp [hw]), List.take_left, wp_bind]
  rw [wp_emitAdv_iff (by simpa using hl) (by cases w <;> simp at hw ⊢) (by simp)]
  simp [wp_set_iff, HS.emitted, HS.withExt]
  exact hQ

theorem wp_suffix {w b : Bytes} {i : Nat} {out : List Emit} (h : Suffix cpp env.opts.strict w b)
    (hl : i + (w ++ b).length = env.src.length) {Q : Unit → HS Bool → Prop}
    (hQ : ∀ y, y = x ∨ y = false → Q () ⟨b, i + w.length, out ++ optEmit i w .string_decor, y⟩) :
    wp (consumeStringSuffix cpp) Q env ⟨w ++ b, i, out, x⟩ := by
  unfold consumeStringSuffix
  rw [wp_bind]
  rcases h with ⟨rfl, h⟩ | ⟨h1, h2⟩
  · unfold expectIdentifier
    rw [wp_bind, wp_rem, wp_bind, wp_opts]
    simp [matchIdentifier_none h]
    simpa [optEmit] using hQ x (.inl rfl)
  · have hw : w ≠ [] := by
      rintro rfl
      obtain ⟨_, _, _, h, _⟩ := Identifier.first h1
      simp at h
    refine wp_identifier hw (matchIdentifier_eq h1) hl ?_
    rw [wordType_other h2]
    simpa [optEmit, hw] using hQ false (.inr rfl)

/-! ## Characters -/

theorem wp_flushChars {p r : Bytes} {i : Nat} {out : List Emit} {Q : Unit → HS Bool → Prop}
    (hQ : Q () ⟨r, i + p.length, out ++ optEmit i p .string, x⟩) :
    wp (flushChars p.length) Q env ⟨r, i + p.length, out, x⟩ := by
  unfold flushChars
  by_cases hp : p = []
  · subst hp
    simpa [optEmit] using hQ
  · simp [hp]
    refine ⟨(), _, ?_, hQ⟩
    simp [emitAnywhere, optEmit, hp]

/-- Plain text is skipped. -/
theorem text_leads {u r : Bytes} (h : Text q u) (k i : Nat) (out : List Emit) (hl : i + (u ++ r).length = env.src.length) :
    Leads (charStep cpp q) env u.length k ⟨u ++ r, i, out, x⟩ (k + u.length) ⟨r, i + u.length, out, x⟩ := by
  obtain ⟨⟨cs, hcs, rfl⟩, h2⟩ := h
  induction cs generalizing k i with
  | nil => exact leads_of_skip rfl
  | cons c cs ih =>
    have he := enc_utf8 (hcs c (by simp))
    have e : utf8All (c :: cs) = utf8 c ++ utf8All cs := by simp [utf8All]
    rw [e] at h2 hl ⊢
    have hne : utf8 c ≠ [] := by intro h; rw [h] at he; cases he
    have ih := ih (k + (utf8 c).length) (i + (utf8 c).length) (fun d hd => hcs d (by simp [hd])) (by simp at hl ⊢; omega)
      (fun d hd => h2 d (by simp [hd]))
    generalize utf8All cs = v at *
    generalize utf8 c = p at *
    rw [List.length_append, ← Nat.add_assoc, ← Nat.add_assoc]
    refine leads_trans (leads_of_wp (by cases p <;> simp at hne ⊢) ?_) ih
    obtain ⟨a, p, rfl⟩ := List.exists_cons_of_ne_nil hne
    obtain ⟨a1, a2, a3⟩ := h2 a (by simp)
    unfold InLine at a3
    unfold charStep
    simp [a1, a2, a3]
    have e2 : (if sequenceLength a = 0 then 1 else sequenceLength a) = p.length + 1 := by rw [enc_seqLen he]; simp
    rw [e2, wp_skip (by simp), wp_advance_iff (by simp)]
    simp [HS.adv]

theorem escape_leads {p w r : Bytes} (h : Escaped w r) (hq : q = c!"\"" ∨ q = c!"'") (i : Nat) (out : List Emit)
    (hl : i + p.length + (w ++ r).length = env.src.length) :
    Leads (charStep cpp q) env w.length p.length ⟨w ++ r, i + p.length, out, x⟩ 0
      ⟨r, i + p.length + w.length, out ++ optEmit i p .string ++ [⟨i + p.length, w.length, .string_escape, .normal⟩], x⟩ := by
  have h1 := matchEscape_at h
  obtain ⟨c, u, rfl⟩ : ∃ c u, w = c!"\\" :: c :: u := by
    have he := h.1
    cases he with
    | @octal t ho =>
      cases t with
      | nil => exact absurd ho.1 (by decide)
      | cons c t => exact ⟨c, t, rfl⟩
    | _ => exact ⟨_, _, rfl⟩
  refine leads_of_wp (by simp) ?_
  unfold charStep
  have hq' : c!"\\" ≠ q := by rcases hq with rfl | rfl <;> decide
  simp [hq']
  simp at h1
  simp [h1]
  refine wp_flushChars ?_
  rw [wp_emitAdv_iff (by simp at hl ⊢; omega) (by simp) (by simp)]
  simp [HS.emitted]

/-- All of the content before the quotation mark. -/
theorem inside_leads {es : List (Bytes × Bytes)} {t B : Bytes} (h : Inside q B es t) (hq : q = c!"\"" ∨ q = c!"'") (i : Nat)
    (out : List Emit) (hl : i + ((content es t).flatMap Prod.fst ++ B).length = env.src.length) :
    ∃ (p : Bytes) (j : Nat) (out' : List Emit), Leads (charStep cpp q) env ((content es t).flatMap Prod.fst).length 0
        ⟨(content es t).flatMap Prod.fst ++ B, i, out, x⟩ p.length ⟨B, j + p.length, out', x⟩ ∧
      j + p.length = i + ((content es t).flatMap Prod.fst).length ∧
      out' ++ optEmit j p .string = out ++ partsEmit i (content es t) := by
  induction es generalizing i out with
  | nil =>
    refine ⟨t, i, out, ?_, by simp [content], by simp [content, partsEmit]⟩
    have := text_leads (cpp := cpp) (x := x) (r := B) h 0 i out (by simpa [content] using hl)
    simpa [content] using this
  | cons uw es ih =>
    obtain ⟨u, w⟩ := uw
    obtain ⟨h1, h2, h3⟩ := h
    have e : (content ((u, w) :: es) t).flatMap Prod.fst = u ++ (w ++ (content es t).flatMap Prod.fst) := by simp [content]
    have e' : partsEmit i (content ((u, w) :: es) t) = optEmit i u .string ++
        (optEmit (i + u.length) w .string_escape ++ partsEmit (i + u.length + w.length) (content es t)) := by
      simp [content, partsEmit]
    rw [e] at hl
    rw [e, e']
    generalize (content es t).flatMap Prod.fst = T at *
    have hw : w ≠ [] := by rintro rfl; cases h2.1
    obtain ⟨p, j, out', k1, k2, k3⟩ := ih h3 (i + u.length + w.length)
      (out ++ optEmit i u .string ++ [⟨i + u.length, w.length, .string_escape, .normal⟩])
      (by rw [List.append_assoc, List.append_assoc, List.length_append, List.length_append] at hl; omega)
    refine ⟨p, j, out', ?_, by simp; omega, ?_⟩
    · have l1 := text_leads (cpp := cpp) (x := x) (r := w ++ (T ++ B)) h1 0 i out (by simpa using hl)
      have l2 := escape_leads (env := env) (cpp := cpp) (x := x) (p := u) h2 hq i out (by simp at hl ⊢; omega)
      rw [Nat.zero_add] at l1
      have := leads_trans l1 (leads_trans l2 k1)
      simpa using this
    · rw [k3]
      simp [optEmit, hw]

theorem wp_chars {es : List (Bytes × Bytes)} {t suf b : Bytes} (h : Inside q ([q] ++ suf ++ b) es t)
    (hq : q = c!"\"" ∨ q = c!"'") (hs : Suffix cpp env.opts.strict suf b) {i : Nat} {out : List Emit}
    (hl : i + ((content es t).flatMap Prod.fst ++ ([q] ++ suf ++ b)).length = env.src.length) {Q : Unit → HS Bool → Prop}
    (hQ : Q () ⟨b, i + ((content es t).flatMap Prod.fst).length + 1 + suf.length,
      out ++ partsEmit i (content es t ++ [([q], .string_delim), (suf, .string_decor)]), false⟩) :
    wp (consumeChars cpp q) Q env ⟨(content es t).flatMap Prod.fst ++ ([q] ++ suf ++ b), i, out, x⟩ := by
  obtain ⟨p, j, out', h1, h2, h3⟩ := inside_leads (cpp := cpp) (x := x) h hq i out hl
  have e : partsEmit i (content es t ++ [([q], .string_delim), (suf, .string_decor)]) = partsEmit i (content es t) ++
      ([⟨i + ((content es t).flatMap Prod.fst).length, 1, .string_delim, .normal⟩] ++
        optEmit (i + ((content es t).flatMap Prod.fst).length + 1) suf .string_decor) := by
    rw [partsEmit_append]
    simp [partsEmit, optEmit]
  rw [e, ← List.append_assoc, ← h3] at hQ
  generalize (content es t).flatMap Prod.fst = T at *
  have hlast : wp (HM.loop 1 (charStep cpp q) p.length) (fun r s => r = () ∧ s = ⟨b, i + T.length + 1 + suf.length,
      out' ++ optEmit j p .string ++ ([⟨i + T.length, 1, .string_delim, .normal⟩] ++
        optEmit (i + T.length + 1) suf .string_decor), false⟩) env ⟨[q] ++ suf ++ b, j + p.length, out', x⟩ := by
    unfold HM.loop
    rw [wp_bind]
    unfold charStep
    simp
    refine wp_flushChars ?_
    rw [wp_emitAdv_iff (by simp at hl ⊢; omega) (by simp) (by simp)]
    simp [HS.emitted]
    refine wp_suffix hs (by simp at hl ⊢; omega) fun x _ => ?_
    rw [wp_set_iff]
    simp [HS.withExt, h2]
  have h4 := h1 _ _ (ok_of_wp hlast)
  unfold consumeChars
  rw [wp_bind, wp_rem]
  have := loop_mono h4 (([q] ++ suf ++ b).length)
  refine (wp_of_ok ?_).2 hQ
  rw [← this]
  congr 1
  simp
  omega

end Ulight.Cpp
