import Verif.Props.Lang.JsMatch
import Verif.Props.Lang.Cpp

/-!
# JavaScript and TypeScript highlighting: what each token is
-/

namespace Ulight

open Utf8 Spec Spec.JavaScript
open Spec.Cpp (prevByte)

namespace Js

/-- The rules for one run. -/
abbrev R (m : Dialect) (env : HEnv) : Rules := rules m env.src

variable {m : Dialect} {env : HEnv} {s : HS Elem}

theorem prevByte_at {p : Nat} (hp : p ≤ env.src.length) (h0 : 0 < p) :
    prevByte env.src (env.src.drop p) = env.src[p - 1]? := Cpp.prevByte_at hp h0

theorem prevByte_drop {p n : Nat} (g : GoodAt (R m env) env p s) (hn : 0 < n) (hl : n ≤ s.rem.length) :
    prevByte env.src (s.rem.drop n) = s.rem[n - 1]? := by
  have l := g.len
  have r := g.rem
  rw [r, List.drop_drop, prevByte_at (by omega) (by omega), List.getElem?_drop]
  congr 1
  omega

/-- Text that was passed, if it has no influence on where code ends, or is a string.  The first alternative is
all that is known about the rest. -/
def Exact (s s' : HS Elem) : Prop :=
  (∃ c, s.rem[0]? = some c ∧ c ∈ b!"{}`/<") ∨
  (s'.ext ≠ .hashbang ∧ ((∀ c ∈ s.rem.take (s'.idx - s.idx), Simple c) ∨
    ∃ q, s.rem[0]? = some q ∧ q ∈ b!"'\"" ∧ s'.idx = s.idx + (matchStringLiteral s.rem).length))

/-- What `expect_` functions do. -/
def Step (m : Dialect) (env : HEnv) (s : HS Elem) (f : HM Elem Bool) (F : Prop) : Prop :=
  wp f (fun b s' => (b = true ∧ Good (R m env) env s' ∧ s.idx < s'.idx ∧ (s.ext ≠ .hashbang → Exact s s')) ∨
    (b = false ∧ s' = s ∧ F)) env s

theorem exact_simple {s' : HS Elem} {n : Nat} (hi : s'.idx = s.idx + n) (hx : s'.ext ≠ .hashbang)
    (h : ∀ c ∈ s.rem.take n, Simple c) : Exact s s' :=
  Or.inr ⟨hx, Or.inl (by rwa [hi, Nat.add_sub_cancel_left])⟩

theorem get_of_startsWith {t p : Bytes} {c : UInt8} (h : startsWith t (c :: p) = true) : t[0]? = some c :=
  first_of_startsWith h

/-! ## Whitespace and comments -/

theorem expectWhitespace_spec (g : Good (R m env) env s) :
    Step m env s expectWhitespace (NoFirst White s.rem) := by
  unfold Step expectWhitespace
  rw [wp_bind, wp_rem]
  dsimp only
  obtain ⟨h1, h2, h3⟩ := whitespace_facts s.rem
  rw [wp_bind]
  by_cases h0 : matchWhitespace s.rem = 0
  · rw [h0, wp_advance_iff (by omega), wp_pure]
    refine Or.inr ⟨by simp, by simp [HS.adv], ?_⟩
    rw [h0] at h2
    simpa using LongestChars.noFirst h2
  · refine wp_step_advance g h1 (Gap.white h2) fun s1 g1 l1 e1 i1 x1 => ?_
    rw [wp_pure]
    exact Or.inl ⟨by simpa using h0, g1, by omega, fun hx => exact_simple i1 (by rw [x1]; exact hx) h3⟩

theorem hashbang_facts (t : Bytes) :
    (matchHashbang t = 0) ∨
    (2 ≤ matchHashbang t ∧ matchHashbang t ≤ t.length ∧ startsWith t b!"#!" = true ∧
      Spec.Js.Line (t.drop 2) (matchHashbang t - 2)) := by
  unfold matchHashbang
  split
  · exact Or.inl rfl
  · rename_i h
    have h : startsWith t b!"#!" = true := by simpa using h
    obtain ⟨u, rfl⟩ := startsWith_iff.1 h
    right
    obtain ⟨body, rest, h1, h2, h3, h4⟩ := lineCommentLoop_spec u 2
    have e : (b!"#!" ++ u).drop 2 = u := rfl
    rw [e, h2]
    refine ⟨by omega, by simp [h1]; omega, h, ?_⟩
    rw [Nat.add_sub_cancel_left, h1]
    refine ⟨h3, ?_⟩
    by_cases hr : rest = []
    · left; simp [hr]
    · exact Or.inr (h4 hr)

theorem expectHashbang_spec (g : Good (R m env) env s) : Step m env s expectHashbang True := by
  unfold Step expectHashbang
  rw [wp_bind, wp_get]
  split
  · rw [wp_pure]
    exact Or.inr ⟨rfl, rfl, trivial⟩
  rename_i hx
  have hx : s.ext = .hashbang := by simpa [Elem.hasHashbang] using hx
  rw [wp_bind, wp_rem]
  dsimp only
  rcases hashbang_facts s.rem with h | ⟨h1, h2, h3, h4⟩
  · rw [if_pos h, wp_pure]
    exact Or.inr ⟨rfl, rfl, trivial⟩
  · rw [if_neg (by omega), wp_bind]
    have ht : s.rem.take 2 = b!"#!" := by
      obtain ⟨u, e⟩ := startsWith_iff.1 h3
      rw [e]; rfl
    refine wp_step_emitAdv g (by omega) (by omega) (by simp) (Tok.commentDelim (by simp [ht])) fun s1 g1 l1 e1 i1 x1 => ?_
    rw [wp_bind]
    refine wp_step_emitAdvIf g1 (by rw [e1]; simp; omega) (by simp)
      (fun _ => Tok.lineComment (by rw [e1]; exact h4) ?_) fun s2 g2 l2 e2 i2 x2 => ?_
    · rw [e1, prevByte_drop g (by omega) (by omega)]
      obtain ⟨u, e⟩ := startsWith_iff.1 h3
      rw [e]; simp
    rw [wp_pure]
    exact Or.inl ⟨rfl, g2, by omega, fun h => absurd hx h⟩

/-- What a highlighting function does with exactly `n` bytes. -/
def Takes (m : Dialect) (env : HEnv) (s : HS Elem) (n : Nat) (f : HM Elem Unit) : Prop :=
  wp f (fun _ s' => Good (R m env) env s' ∧ s'.rem = s.rem.drop n ∧ s'.idx = s.idx + n) env s

theorem highlightLineComment_spec (g : Good (R m env) env s) (h : matchLineComment s.rem ≠ 0) :
    Takes m env s (matchLineComment s.rem) (highlightLineComment (matchLineComment s.rem)) := by
  unfold Takes highlightLineComment
  rcases matchLineComment_facts s.rem with ⟨h0, _⟩ | ⟨h1, h2, h3, h4⟩
  · exact absurd h0 h
  rw [wp_bind]
  have ht : s.rem.take 2 = b!"//" := by
    obtain ⟨u, e⟩ := startsWith_iff.1 h3
    rw [e]; rfl
  refine wp_step_emitAdv g (by omega) (by omega) (by simp) (Tok.commentDelim (by simp [ht])) fun s1 g1 l1 e1 i1 x1 => ?_
  rw [wp_bind]
  refine wp_step_emitAdvIf g1 (by rw [e1]; simp; omega) (by simp)
    (fun _ => Tok.lineComment (by rw [e1]; exact h4) ?_) fun s2 g2 l2 e2 i2 x2 => ?_
  · rw [e1, prevByte_drop g (by omega) (by omega)]
    obtain ⟨u, e⟩ := startsWith_iff.1 h3
    rw [e]; simp
  refine wp_step_set g2 fun s3 g3 l3 e3 i3 x3 => ?_
  refine ⟨g3, ?_, by omega⟩
  rw [e3, e2, e1, List.drop_drop]
  congr 1
  omega

theorem expectLineComment_spec (g : Good (R m env) env s) :
    Step m env s expectLineComment (startsWith s.rem b!"//" = false) := by
  unfold Step expectLineComment
  rw [wp_bind, wp_rem]
  dsimp only
  split
  · rename_i h
    rw [wp_bind]
    refine wp_mono (highlightLineComment_spec g h) ?_
    rintro _ s1 ⟨g1, e1, i1⟩
    rw [wp_pure]
    refine Or.inl ⟨rfl, g1, by omega, fun _ => Or.inl ⟨c!"/", ?_, by decide⟩⟩
    rcases matchLineComment_facts s.rem with ⟨h0, _⟩ | ⟨h1, h2, h3, h4⟩
    · exact absurd h0 h
    · exact get_of_startsWith h3
  · rename_i h
    rw [wp_pure]
    rcases matchLineComment_facts s.rem with ⟨_, h0⟩ | ⟨h1, h2, h3, h4⟩
    · exact Or.inr ⟨rfl, rfl, h0⟩
    · omega

theorem tokAt {p n : Nat} {ty : HT} (h : Tok m (prevByte env.src (env.src.drop p)) (env.src.drop p) n ty) :
    (R m env).tok (env.src.drop p) n ty := h

theorem highlightBlockComment_spec (g : Good (R m env) env s) (h : (matchBlockComment s.rem).length ≠ 0) :
    Takes m env s (matchBlockComment s.rem).length (highlightBlockComment (matchBlockComment s.rem)) := by
  unfold Takes highlightBlockComment
  rw [wp_bind]
  refine wp_dassert (by simpa using h) ?_
  have e : matchBlockComment s.rem = matchEnclosed s.rem b!"/*" b!"*/" := matchBlockComment_eq s.rem
  rw [e] at h ⊢
  have hl := g.len
  have hr := g.rem
  unfold Cpp.highlightBlockComment
  simp only [wp_bind]
  rw [wp_index]
  have prev : ∀ k, s.rem[1]? = some c!"*" → k = s.idx + 2 → k ≤ env.src.length →
      prevByte env.src (env.src.drop k) = some c!"*" := by
    rintro k h1 rfl hk
    rw [prevByte_at hk (by omega)]
    rw [hr] at h1
    simpa [Nat.add_comm] using h1
  rcases matchEnclosed_spec s.rem b!"/*" b!"*/" with ⟨_, h1⟩ | ⟨body, rest, hs, hb, h1⟩ | ⟨body, hs, hb, h1⟩
  · rw [h1] at h
    exact absurd rfl h
  · have hlen := congrArg List.length hs
    simp at hlen
    rw [h1]
    simp only [if_true, Cpp.emitWhen, List.length_cons, List.length_nil]
    have h1' : s.rem[1]? = some c!"*" := by rw [hs]; simp
    refine wp_emitAt (p := s.idx) g (by omega) (by omega) (by simp)
      (tokAt (Tok.commentDelim (by rw [← hr, hs]; simp))) fun s1 g1 e1 i1 x1 => ?_
    refine wp_emitIf g1 (by omega) (by simp) (fun _ => tokAt (Tok.blockComment ?_ (prev _ h1' rfl (by omega))))
      fun s2 g2 e2 i2 x2 => ?_
    · rw [← List.drop_drop, ← hr, hs]
      have e3 : (b!"/*" ++ body ++ b!"*/" ++ rest).drop 2 = body ++ b!"*/" ++ rest := by simp
      rw [e3, show 0 + 1 + 1 + body.length + (0 + 1 + 1) - 2 - 2 = body.length by omega]
      exact ⟨hb, Or.inr ⟨body, rest, by simp, rfl⟩⟩
    have hp : s.idx + (0 + 1 + 1 + body.length + (0 + 1 + 1)) - 2 =
        s.idx + 2 + (0 + 1 + 1 + body.length + (0 + 1 + 1) - 2 - 2) := by omega
    rw [hp]
    refine wp_emitAt g2 (by omega) (by omega) (by simp) (tokAt (Tok.commentDelim ?_)) fun s3 g3 e3 i3 x3 => ?_
    · have e3 : s.idx + 2 + (0 + 1 + 1 + body.length + (0 + 1 + 1) - 2 - 2) = s.idx + (2 + body.length) := by omega
      rw [e3, ← List.drop_drop, ← hr, hs]
      have : (b!"/*" ++ body ++ b!"*/" ++ rest).drop (2 + body.length) = b!"*/" ++ rest := by
        rw [← List.drop_drop]
        simp
      rw [this]
      simp
    refine wp_advanceAt g3 (by rw [e3, e2, e1]; omega) fun s4 g4 e4 i4 x4 => ?_
    have g4 := g4.good (by omega)
    refine wp_step_set g4 fun s5 g5 l5 e5 i5 x5 => ?_
    refine ⟨g5, by rw [e5, e4, e3, e2, e1], by omega⟩
  · have hlen := congrArg List.length hs
    simp at hlen
    rw [h1]
    simp only [if_false, Cpp.emitWhen, Bool.false_eq_true, Nat.sub_zero]
    have h1' : s.rem[1]? = some c!"*" := by rw [hs]; simp
    refine wp_emitAt (p := s.idx) g (by omega) (by omega) (by simp)
      (tokAt (Tok.commentDelim (by rw [← hr, hs]; simp))) fun s1 g1 e1 i1 x1 => ?_
    refine wp_emitIf g1 (by omega) (by simp) (fun _ => tokAt (Tok.blockComment ?_ (prev _ h1' rfl (by omega))))
      fun s2 g2 e2 i2 x2 => ?_
    · rw [← List.drop_drop, ← hr, hs]
      have e3 : (b!"/*" ++ body).drop 2 = body := by simp
      rw [e3, show (b!"/*" ++ body).length - 2 = body.length by simp]
      exact ⟨fun k hk => absurd hk (hb k), Or.inl rfl⟩
    rw [wp_pure]
    refine wp_advanceAt g2 (by rw [e2, e1]; omega) fun s4 g4 e4 i4 x4 => ?_
    have g4 := g4.good (by omega)
    refine wp_step_set g4 fun s5 g5 l5 e5 i5 x5 => ?_
    refine ⟨g5, by rw [e5, e4, e2, e1], by omega⟩

theorem blockComment_start {t : Bytes} (h : (matchBlockComment t).length ≠ 0) : startsWith t b!"/*" = true := by
  unfold matchBlockComment at h
  split at h
  · exact absurd rfl h
  · rename_i hs
    simpa using hs

theorem blockComment_zero {t : Bytes} (h : ¬ (matchBlockComment t).length ≠ 0) : startsWith t b!"/*" = false := by
  rw [matchBlockComment_eq] at h
  have := (blockComment_facts t).2
  cases hs : startsWith t b!"/*" with
  | false => rfl
  | true => have := this hs; omega

theorem expectBlockComment_spec (g : Good (R m env) env s) :
    Step m env s expectBlockComment (startsWith s.rem b!"/*" = false) := by
  unfold Step expectBlockComment
  rw [wp_bind, wp_rem]
  dsimp only
  split
  · rename_i h
    rw [wp_bind]
    refine wp_mono (highlightBlockComment_spec g h) ?_
    rintro _ s1 ⟨g1, e1, i1⟩
    rw [wp_pure]
    exact Or.inl ⟨rfl, g1, by omega, fun _ => Or.inl ⟨c!"/", get_of_startsWith (blockComment_start h), by decide⟩⟩
  · rename_i h
    rw [wp_pure]
    exact Or.inr ⟨rfl, rfl, blockComment_zero h⟩

/-! ## Strings -/

theorem flushChars_spec {chars p : Nat} (g : GoodAt (R m env) env p s) (ha : p + chars = s.idx)
    (ht : chars ≠ 0 → (R m env).tok (env.src.drop p) chars .string) {Q : Unit → HS Elem → Prop}
    (k : ∀ s', Good (R m env) env s' → s'.idx + s'.rem.length = env.src.length → s'.rem = s.rem →
      s'.idx = s.idx → Q () s') : wp (flushChars chars) Q env s := by
  have hl := g.len
  unfold flushChars
  split
  · rename_i h0
    rw [wp_bind, wp_index, show s.idx - chars = p by omega]
    refine wp_emitAt g (by omega) (by omega) (by simp) (ht h0) ?_
    intro s1 g1 e1 i1 x1
    have g1 := g1.good (by omega)
    exact k s1 g1 g1.len e1 i1
  · rename_i h0
    have h0 : chars = 0 := by omega
    subst h0
    rw [wp_pure]
    have g := g.good (by omega)
    exact k s g g.len rfl rfl

/-- A part of the text of a string. -/
structure Piece (q : UInt8) (s : Bytes) (n : Nat) : Prop where
  le : n ≤ s.length
  plain : ∀ c ∈ s.take n, c ≠ q ∧ c ≠ 0x0A
  backslash : ∀ k, k < n → s[k]? = some c!"\\" → k + 1 = s.length

theorem Piece.zero {q : UInt8} {s : Bytes} : Piece q s 0 := ⟨by omega, by simp, by omega⟩

theorem Piece.append {q : UInt8} {s : Bytes} {n k : Nat} (h1 : Piece q s n) (h2 : Piece q (s.drop n) k) :
    Piece q s (n + k) := by
  have l1 := h1.le
  have l2 := h2.le
  rw [List.length_drop] at l2
  refine ⟨by omega, ?_, ?_⟩
  · intro c hc
    rw [List.take_add, List.mem_append] at hc
    rcases hc with hc | hc
    · exact h1.plain c hc
    · exact h2.plain c hc
  · intro j hj hs
    rcases Nat.lt_or_ge j n with h | h
    · exact h1.backslash j h hs
    · have := h2.backslash (j - n) (by omega) (by rw [List.getElem?_drop, show n + (j - n) = j by omega]; exact hs)
      rw [List.length_drop] at this
      omega

theorem Piece.of_plain {q : UInt8} {s : Bytes} {n : Nat} (hn : n ≤ s.length) (h : ∀ c ∈ s.take n, Plain q c) :
    Piece q s n := by
  refine ⟨hn, fun c hc => ⟨(h c hc).1, (h c hc).2.1⟩, ?_⟩
  intro k hk hs
  exfalso
  obtain ⟨hlt, e⟩ := List.getElem?_eq_some_iff.1 hs
  refine (h c!"\\" ?_).2.2 rfl
  rw [List.mem_iff_getElem]
  exact ⟨k, by rw [List.length_take]; omega, by simp [e]⟩

/-- The state of the loop over a string that ends at `e`. -/
structure InString (m : Dialect) (env : HEnv) (q : UInt8) (e : Nat) (v : Nat × Nat) (p : Nat) (s : HS Elem) : Prop where
  good : GoodAt (R m env) env p s
  at_ : p + v.2 = s.idx
  piece : Piece q (env.src.drop p) v.2
  literal : Literal q s.rem v.1
  body : Body q s.rem
  end_ : s.idx + v.1 = e

theorem text_tok {q : UInt8} {p n : Nat} (hq : q ∈ b!"'\"") (h : Piece q (env.src.drop p) n) (g : GoodAt (R m env) env p s)
    (ha : p + n = s.idx) (hs : s.rem = [] ∨ ∃ c, s.rem[0]? = some c ∧ (c = q ∨ c = 0x0A ∨ c = c!"\\")) :
    (R m env).tok (env.src.drop p) n .string := by
  refine tokAt (Tok.string hq ⟨h.plain, h.backslash, ?_⟩)
  have e : (env.src.drop p).drop n = s.rem := by rw [List.drop_drop, ha, ← g.rem]
  rcases hs with hs | ⟨c, hc, hs⟩
  · left
    rw [hs] at e
    have := congrArg List.length e
    simp only [List.length_drop, List.length_nil] at this
    have := h.le
    rw [List.length_drop] at *
    omega
  · right
    refine ⟨c, ?_, hs⟩
    rw [← e, List.getElem?_drop] at hc
    simpa using hc

theorem stringStep_spec {q : UInt8} {e p : Nat} {v : Nat × Nat} (hq : q ∈ b!"'\"") (h : InString m env q e v p s) :
    wp (stringStep v) (fun r s' => match r with
      | .inl v' => (∃ p, InString m env q e v' p s') ∧ v'.1 < v.1
      | .inr chars => ∃ p, InString m env q e (0, chars) p s') env s := by
  obtain ⟨remaining, chars⟩ := v
  obtain ⟨g, ha, hp, hlit, hbody, hend⟩ := h
  simp only at ha hlit hend hp
  have hl := g.len
  have ee : (env.src.drop p).drop chars = s.rem := by rw [List.drop_drop, ha, ← g.rem]
  unfold stringStep
  dsimp only
  by_cases h0 : remaining = 0
  · rw [if_pos h0, wp_pure]
    subst h0
    exact ⟨p, g, ha, hp, hlit, hbody, hend⟩
  rw [if_neg h0, wp_bind, wp_rem]
  by_cases hb : startsWith s.rem b!"\\" = true
  · rw [if_pos hb]
    obtain ⟨t, hr⟩ := startsWith_one hb
    cases t with
    | nil =>
      have hn : remaining = 1 := literal_backslash hq (hr ▸ hlit)
      subst hn
      have he : (matchEscape s.rem).length = 0 := by rw [hr]; rfl
      rw [if_neg (by simp [he]), wp_bind]
      refine wp_advanceAt g (by rw [hr]; simp) fun s1 g1 e1 i1 x1 => ?_
      rw [wp_pure]
      refine ⟨⟨p, g1, by simp only; omega, ?_, ?_, ?_, by simp only; omega⟩, by simp⟩
      · refine hp.append ?_
        rw [ee, hr]
        exact ⟨by simp, by simp; exact Ne.symm (quote_ne hq).1, fun k hk _ => by simp; omega⟩
      · rw [e1, hr]; exact .done
      · rw [e1, hr]; exact .done
    | cons c t =>
      have hf := matchEscape_facts c t
      rw [← hr] at hf
      obtain ⟨h2, h3, h4⟩ := escape_in_literal hq (hr ▸ hbody) (hr ▸ hlit) (hr ▸ hf.extent) hf.two
        (by have := hf.le; rw [hr] at this; simpa [hr] using this)
      rw [← hr] at h3 h4
      have hf2 := hf.two
      have hfl := hf.le
      rw [if_pos (by omega), wp_bind]
      refine flushChars_spec g ha (fun _ => text_tok hq hp g ha (Or.inr ⟨c!"\\", get_of_startsWith hb, by simp⟩))
        fun s1 g1 l1 e1 i1 => ?_
      rw [wp_bind]
      refine wp_step_emitAdv g1 (by omega) (by rw [e1]; exact hf.le) (by split <;> simp) ?_ fun s2 g2 l2 e2 i2 x2 => ?_
      · rw [e1]
        cases he : (matchEscape s.rem).erroneous with
        | true => exact Tok.badEscape (hf.bad he) hf.extent
        | false => exact Tok.escape (hf.good he)
      rw [wp_pure]
      have es : sub64 remaining (matchEscape s.rem).length = remaining - (matchEscape s.rem).length := by
        unfold sub64; rw [if_pos h2]
      dsimp only
      rw [es]
      refine ⟨⟨s2.idx, g2, rfl, Piece.zero, ?_, ?_, by simp only; omega⟩, by omega⟩
      · rw [e2, e1]; exact h3
      · rw [e2, e1]; exact h4
  · rw [if_neg hb]
    have hfind := findSub_spec b!"\\" s.rem
    -- the number of bytes up to the next backslash
    have hnext : ∃ k, min remaining (findBackslash s.rem) = min remaining k ∧ 0 < k ∧ c!"\\" ∉ s.rem.take (min remaining k) := by
      have hlm : remaining ≤ s.rem.length := by
        obtain ⟨n, h1, h2, _⟩ := literal_loop hq s.rem 0
        rw [literal_unique hq hlit h1]; exact h2
      have hlen64 : remaining ≤ 2 ^ 64 - 1 ∨ 2 ^ 64 - 1 < remaining := by omega
      cases hf : findSub b!"\\" s.rem with
      | none =>
        rw [hf] at hfind
        refine ⟨findBackslash s.rem, rfl, by simp [findBackslash, hf], ?_⟩
        intro hc
        obtain ⟨j, hj, e⟩ := List.mem_iff_getElem.1 (List.mem_of_mem_take hc)
        refine hfind j (occursAt_iff.2 ⟨by omega, ?_⟩)
        rw [List.drop_eq_getElem_cons hj, e]
        simp
      | some k =>
        rw [hf] at hfind
        refine ⟨k, by simp [findBackslash, hf], ?_, ?_⟩
        · rcases Nat.eq_zero_or_pos k with rfl | hk
          · exact absurd (occursAt_zero.1 hfind.1) hb
          · exact hk
        · intro hc
          obtain ⟨j, hj, e⟩ := List.mem_iff_getElem.1 hc
          rw [List.length_take] at hj
          have := hfind.2 j (by omega)
          refine this (occursAt_iff.2 ⟨by omega, ?_⟩)
          rw [List.drop_eq_getElem_cons (by omega)]
          simp at e
          rw [e]
          simp
    obtain ⟨k, hk, hk0, hk1⟩ := hnext
    rw [hk]
    have hn0 : 0 < min remaining k := by omega
    have hn1 : min remaining k ≤ remaining := by omega
    generalize min remaining k = n at hk1 hn0 hn1
    rw [if_pos hn0, wp_bind]
    obtain ⟨h1, h2⟩ := literal_text hlit hn1 hk1
    refine wp_advanceAt g h2 fun s1 g1 e1 i1 x1 => ?_
    rw [wp_pure]
    refine ⟨⟨p, g1, by simp only; omega, ?_, ?_, ?_, by simp only; omega⟩, by simp only; omega⟩
    · refine hp.append ?_
      rw [ee]
      exact .of_plain h2 h1
    · rw [e1]; exact (literal_plain hlit h2 h1).2
    · rw [e1]; exact body_plain hbody h1

theorem highlightStringLiteral_spec (hS : StringsFit env.src) (g : Good (R m env) env s)
    (h : (matchStringLiteral s.rem).length ≠ 0) :
    wp (highlightStringLiteral (matchStringLiteral s.rem)) (fun _ s' => Good (R m env) env s' ∧
      s'.rem = s.rem.drop (matchStringLiteral s.rem).length ∧
      s'.idx = s.idx + (matchStringLiteral s.rem).length ∧ s'.ext = .div) env s := by
  have hl := g.len
  obtain ⟨q, t, hr, hq⟩ := stringLiteral_length h
  have hbody : Body q t := hS s.idx q t (by rw [← g.rem, hr]) hq
  obtain ⟨n, h1, h2, h3⟩ := stringLiteral_facts (q := q) (t := t) hq
  rw [← hr] at h3
  have hrl : s.rem.length = t.length + 1 := by rw [hr]; rfl
  unfold highlightStringLiteral
  rw [wp_bind, wp_hassert]
  refine ⟨by simpa using h, ?_⟩
  rw [wp_bind]
  refine wp_step_emitAdv g (by omega) (by omega) (by simp) (Tok.quote (by rw [hr]; simp at hq; rcases hq with rfl | rfl <;> simp))
    fun s1 g1 l1 e1 i1 x1 => ?_
  have e1 : s1.rem = t := by rw [e1, hr]; rfl
  rw [wp_bind, wp_rem]
  dsimp only
  have hc : (matchStringLiteral s.rem).length - (if (matchStringLiteral s.rem).terminated = true then 2 else 1) = n := by
    rcases h3 with ⟨h3, _⟩ | ⟨h3, _⟩ <;> rw [h3] <;> simp
  rw [hc, wp_bind]
  refine wp_mono (wp_loop (Q := fun chars s' => ∃ p, InString m env q (s1.idx + n) (0, chars) p s')
    (fun v s' => ∃ p, InString m env q (s1.idx + n) v p s') (fun v _ => v.1) ?_ _ (n, 0) s1
    ⟨s1.idx, g1, rfl, .zero, by rw [e1]; exact h1, by rw [e1]; exact hbody, rfl⟩ (by rw [e1]; simp only; omega)) ?_
  · rintro v s2 ⟨p, hp⟩
    refine wp_mono (stringStep_spec hq hp) ?_
    rintro (v' | a) s3 h4 <;> exact h4
  · rintro chars s2 ⟨p, gp, ha, hp, hlit, hb, he⟩
    simp only [Nat.add_zero] at he ha hp hlit
    have hl2 := gp.len
    have e2 : s2.rem = t.drop n := by
      rw [gp.rem, he, i1, Nat.add_assoc, ← List.drop_drop, ← g.rem, hr, ← List.drop_drop]
      rfl
    rw [wp_bind]
    refine flushChars_spec gp ha (fun _ => text_tok hq hp gp ha ?_) fun s3 g3 l3 e3 i3 => ?_
    · rcases literal_zero hlit with h4 | h4 | h4
      · exact Or.inl h4
      · exact Or.inr ⟨_, h4, by simp⟩
      · exact Or.inr ⟨_, h4, by simp⟩
    rw [wp_bind]
    refine wp_step_emitAdvIf g3 ?_ (by simp) (fun h0 => Tok.quote ?_) fun s4 g4 l4 e4 i4 x4 => ?_
    · rw [e3, e2]
      rcases h3 with ⟨h3, h4⟩ | ⟨h3, h4⟩
      · have := (List.getElem?_eq_some_iff.1 h4).1
        rw [h3]; simp; omega
      · rw [h3]; simp
    · rcases h3 with ⟨h3, h4⟩ | ⟨h3, h4⟩
      · obtain ⟨hlt, h4⟩ := List.getElem?_eq_some_iff.1 h4
        rw [e3, e2, h3, List.drop_eq_getElem_cons hlt, h4]
        simp at hq
        rcases hq with rfl | rfl <;> simp
      · rw [h3] at h0; simp at h0
    refine wp_step_set g4 fun s5 g5 l5 e5 i5 x5 => ?_
    refine ⟨g5, ?_, ?_, x5⟩
    · rw [e5, e4, e3, e2, hr, List.drop_drop]
      rw [← hr]
      rcases h3 with ⟨h3, h4⟩ | ⟨h3, h4⟩ <;> rw [h3, hr] <;> simp
    · rw [i5, i4, i3, he, i1]
      rcases h3 with ⟨h3, h4⟩ | ⟨h3, h4⟩ <;> rw [h3] <;> simp <;> omega

theorem expectStringLiteral_spec (hS : StringsFit env.src) (g : Good (R m env) env s) :
    Step m env s expectStringLiteral (∀ q, s.rem[0]? = some q → q ∉ b!"'\"") := by
  unfold Step expectStringLiteral
  rw [wp_bind, wp_rem]
  dsimp only
  split
  · rename_i h
    rw [wp_bind]
    refine wp_mono (highlightStringLiteral_spec hS g h) ?_
    rintro _ s1 ⟨g1, e1, i1, x1⟩
    rw [wp_pure]
    obtain ⟨q, t, hr, hq⟩ := stringLiteral_length h
    exact Or.inl ⟨rfl, g1, by omega, fun _ => Or.inr ⟨by rw [x1]; simp, Or.inr ⟨q, by rw [hr]; rfl, hq, i1⟩⟩⟩
  · rename_i h
    rw [wp_pure]
    refine Or.inr ⟨rfl, rfl, ?_⟩
    intro q hc hq
    cases hr : s.rem with
    | nil => rw [hr] at hc; simp at hc
    | cons a t =>
      rw [hr] at hc
      simp at hc
      subst hc
      obtain ⟨n, _, _, h3⟩ := stringLiteral_facts (q := a) (t := t) hq
      rw [← hr] at h3
      rcases h3 with ⟨h3, _⟩ | ⟨h3, _⟩ <;> rw [h3] at h <;> simp at h

/-! ## Template literals -/

/-- What the recursive calls of `consume_js_before_closing_brace` do. -/
def AgainOk (m : Dialect) (env : HEnv) (n : Nat) (again : HM Elem Unit) : Prop :=
  ∀ s : HS Elem, Good (R m env) env s → s.rem.length < n →
    wp again (fun _ s' => Good (R m env) env s' ∧ s.idx ≤ s'.idx ∧
      (s'.rem = [] ∨ startsWith s'.rem b!"}" = true) ∧
      (∀ w t, s.rem = w ++ b!"}" ++ t → Code w → s'.rem = b!"}" ++ t)) env s

theorem AgainOk.mono {n k : Nat} {again : HM Elem Unit} (h : AgainOk m env n again) (hk : k ≤ n) :
    AgainOk m env k again := fun s g hl => h s g (by omega)

theorem closeSubstitution_spec (g : Good (R m env) env s) (h : s.rem = [] ∨ startsWith s.rem b!"}" = true) :
    wp closeSubstitution (fun _ s' => Good (R m env) env s' ∧ s.idx ≤ s'.idx) env s := by
  unfold closeSubstitution
  rw [wp_bind, wp_rem]
  split
  · rename_i h0
    have h := h.resolve_left h0
    obtain ⟨t, ht⟩ := startsWith_one h
    rw [wp_bind, wp_hassert]
    refine ⟨h, ?_⟩
    refine wp_step_emitAdv g (by omega) (by rw [ht]; simp) (by simp) (Tok.substitution (by rw [ht]; simp))
      fun s1 g1 l1 e1 i1 x1 => ?_
    exact ⟨g1, by omega⟩
  · rw [wp_pure]
    exact ⟨g, by omega⟩

/-- A part of the text of a template literal. -/
structure TPiece (s : Bytes) (n : Nat) : Prop where
  le : n ≤ s.length
  plain : ∀ c ∈ s.take n, c ≠ c!"`"
  noSubstitution : ∀ k, k < n → ¬ OccursAt b!"${" s k
  backslash : ∀ k, k < n → s[k]? = some c!"\\" → k + 1 = s.length

theorem TPiece.zero {s : Bytes} : TPiece s 0 := ⟨by omega, by simp, by omega, by omega⟩

theorem TPiece.append {s : Bytes} {n k : Nat} (h1 : TPiece s n) (h2 : TPiece (s.drop n) k) : TPiece s (n + k) := by
  have l1 := h1.le
  have l2 := h2.le
  rw [List.length_drop] at l2
  refine ⟨by omega, ?_, ?_, ?_⟩
  · intro c hc
    rw [List.take_add, List.mem_append] at hc
    rcases hc with hc | hc
    · exact h1.plain c hc
    · exact h2.plain c hc
  · intro j hj ho
    rcases Nat.lt_or_ge j n with h | h
    · exact h1.noSubstitution j h ho
    · refine h2.noSubstitution (j - n) (by omega) ?_
      obtain ⟨h3, h4⟩ := occursAt_iff.1 ho
      refine occursAt_iff.2 ⟨by rw [List.length_drop]; omega, ?_⟩
      rwa [List.drop_drop, show n + (j - n) = j by omega]
  · intro j hj hs
    rcases Nat.lt_or_ge j n with h | h
    · exact h1.backslash j h hs
    · have := h2.backslash (j - n) (by omega) (by rw [List.getElem?_drop, show n + (j - n) = j by omega]; exact hs)
      rw [List.length_drop] at this
      omega

theorem TPiece.one {c : UInt8} {t : Bytes} (h1 : c ≠ c!"`") (h2 : startsWith (c :: t) b!"${" = false)
    (h3 : c = c!"\\" → t = []) : TPiece (c :: t) 1 := by
  refine ⟨by simp, by simpa using h1, ?_, ?_⟩
  · intro k hk ho
    have : k = 0 := by omega
    subst this
    rw [occursAt_zero, h2] at ho
    cases ho
  · intro k hk hs
    have : k = 0 := by omega
    subst this
    simp at hs
    simp [h3 hs]

theorem TPiece.of_plain {s : Bytes} {n : Nat} (hn : n ≤ s.length)
    (h : ∀ c ∈ s.take n, c ≠ c!"`" ∧ c ≠ c!"$" ∧ c ≠ c!"\\") : TPiece s n := by
  have key : ∀ k c, k < n → s[k]? = some c → c ∈ s.take n := by
    intro k c hk hs
    obtain ⟨hlt, e⟩ := List.getElem?_eq_some_iff.1 hs
    rw [List.mem_iff_getElem]
    exact ⟨k, by rw [List.length_take]; omega, by simp [e]⟩
  refine ⟨hn, fun c hc => (h c hc).1, ?_, ?_⟩
  · intro k hk ho
    obtain ⟨h1, h2⟩ := occursAt_iff.1 ho
    have h3 := get_of_startsWith h2
    rw [List.getElem?_drop] at h3
    exact (h _ (key k _ hk (by simpa using h3))).2.1 rfl
  · intro k hk hs
    exact absurd rfl (h _ (key k _ hk hs)).2.2

/-- The state of the loop over a template literal. -/
structure InTemplate (m : Dialect) (env : HEnv) (v p : Nat) (s : HS Elem) : Prop where
  good : GoodAt (R m env) env p s
  at_ : p + v = s.idx
  piece : TPiece (env.src.drop p) v

theorem template_tok {p n : Nat} (h : InTemplate m env n p s)
    (hs : s.rem = [] ∨ s.rem[0]? = some c!"`" ∨ s.rem[0]? = some c!"\\" ∨ startsWith s.rem b!"${" = true) :
    (R m env).tok (env.src.drop p) n .string := by
  refine tokAt (Tok.template ⟨h.piece.plain, h.piece.noSubstitution, h.piece.backslash, ?_⟩)
  have e : (env.src.drop p).drop n = s.rem := by rw [List.drop_drop, h.at_, ← h.good.rem]
  have hle := h.piece.le
  have e0 : s.rem[0]? = (env.src.drop p)[n]? := by rw [← e, List.getElem?_drop]; rfl
  rcases hs with hs | hs | hs | hs
  · left
    rw [hs] at e
    have := congrArg List.length e
    simp only [List.length_drop, List.length_nil] at this
    rw [List.length_drop] at *
    omega
  · right; left; rw [← e0]; exact hs
  · right; right; left; rw [← e0]; exact hs
  · right; right; right
    exact occursAt_iff.2 ⟨hle, by rw [e]; exact hs⟩

theorem continuation_facts {t : Bytes} (h : matchLineContinuation t ≠ 0) :
    1 < matchLineContinuation t ∧ matchLineContinuation t ≤ t.length ∧ t[0]? = some c!"\\" ∧
    (∃ w ∈ [b!"\n", b!"\r\n", [0xE2, 0x80, 0xA8], [0xE2, 0x80, 0xA9]], OccursAt w t 1) ∧
    (∀ c ∈ (t.drop 1).take (matchLineContinuation t - 1), c ≠ c!"`" ∧ c ≠ c!"$" ∧ c ≠ c!"\\") := by
  unfold matchLineContinuation at h ⊢
  split at h
  · exact absurd rfl h
  rename_i hs
  rw [if_neg hs]
  have hs : startsWith t b!"\\" = true := by simpa using hs
  obtain ⟨u, rfl⟩ := startsWith_one hs
  dsimp only at h ⊢
  rw [List.drop_one, List.tail_cons] at h ⊢
  split at h
  · rename_i h0
    rw [if_pos h0, Nat.add_sub_cancel]
    have key : ∃ w ∈ [b!"\n", b!"\r\n", [0xE2, 0x80, 0xA8], [0xE2, 0x80, 0xA9]], startsWith u w = true ∧
        matchLineTerminator u = w.length := by
      unfold matchLineTerminator at h0 ⊢
      split
      · exact ⟨b!"\n", by simp, ‹_›, rfl⟩
      · split
        · exact ⟨b!"\r\n", by simp, ‹_›, rfl⟩
        · split
          · exact ⟨[0xE2, 0x80, 0xA8], by simp, ‹_›, rfl⟩
          · split
            · exact ⟨[0xE2, 0x80, 0xA9], by simp, ‹_›, rfl⟩
            · simp_all
    obtain ⟨w, hw, h1, h2⟩ := key
    obtain ⟨v, rfl⟩ := startsWith_iff.1 h1
    rw [h2, List.take_left']
    · refine ⟨by omega, by simp, rfl, ⟨w, hw, occursAt_iff.2 ⟨by simp, h1⟩⟩, ?_⟩
      have : ∀ w ∈ [b!"\n", b!"\r\n", [0xE2, 0x80, 0xA8], [0xE2, 0x80, 0xA9]], ∀ c ∈ w,
          c ≠ c!"`" ∧ c ≠ c!"$" ∧ c ≠ c!"\\" := by decide
      exact this w hw
    · rfl
  · exact absurd rfl h

theorem InTemplate.chars {v p n : Nat} (h : InTemplate m env v p s) (hp : TPiece s.rem n) :
    wp (do HM.advance n; pure (Sum.inl (v + n) : Nat ⊕ Unit)) (fun r s' => match r with
      | .inl v' => (∃ p, InTemplate m env v' p s') ∧ s'.idx = s.idx + n
      | .inr _ => False) env s := by
  rw [wp_bind]
  refine wp_advanceAt h.good hp.le fun s1 g1 e1 i1 x1 => ?_
  rw [wp_pure]
  refine ⟨⟨p, g1, by have := h.at_; omega, h.piece.append ?_⟩, i1⟩
  rw [List.drop_drop, h.at_, ← h.good.rem]
  exact hp

theorem templateStep_spec {again : HM Elem Unit} {v p : Nat} (h : InTemplate m env v p s)
    (hA : AgainOk m env s.rem.length again) :
    wp (templateStep again v) (fun r s' => match r with
      | .inl v' => (∃ p, InTemplate m env v' p s') ∧ s.idx < s'.idx
      | .inr _ => Good (R m env) env s' ∧ s.idx ≤ s'.idx) env s := by
  have hl := h.good.len
  have step1 : ∀ c t, s.rem = c :: t → c ≠ c!"`" → startsWith s.rem b!"${" = false → (c = c!"\\" → t = []) →
      wp (do HM.advance 1; pure (Sum.inl (v + 1) : Nat ⊕ Unit)) (fun r s' => match r with
      | .inl v' => (∃ p, InTemplate m env v' p s') ∧ s.idx < s'.idx
      | .inr _ => Good (R m env) env s' ∧ s.idx ≤ s'.idx) env s := by
    intro c t hr h1 h2 h3
    refine wp_mono (h.chars (n := 1) (by rw [hr]; exact .one h1 (by rw [← hr]; exact h2) h3)) ?_
    rintro (v' | a) s1 h4
    · exact ⟨h4.1, by have := h4.2; omega⟩
    · exact absurd h4 (by simp)
  unfold templateStep
  rw [wp_bind, wp_rem]
  split
  · rename_i hr
    rw [wp_bind]
    refine flushChars_spec h.good h.at_ (fun _ => template_tok h (Or.inl hr)) fun s1 g1 l1 e1 i1 => ?_
    rw [wp_pure]
    exact ⟨g1, by omega⟩
  · rename_i c t hr
    have hrl : s.rem.length = t.length + 1 := by rw [hr]; rfl
    split
    · rename_i hc
      rw [wp_bind]
      refine flushChars_spec h.good h.at_ (fun _ => template_tok h (Or.inr (Or.inl (by rw [hr, hc]; rfl))))
        fun s1 g1 l1 e1 i1 => ?_
      rw [wp_bind]
      refine wp_step_emitAdv g1 (by omega) (by omega) (by simp) (Tok.quote (by rw [e1, hr, hc]; simp))
        fun s2 g2 l2 e2 i2 x2 => ?_
      rw [wp_bind]
      refine wp_step_set g2 fun s3 g3 l3 e3 i3 x3 => ?_
      rw [wp_pure]
      exact ⟨g3, by omega⟩
    rename_i hc
    split
    · rename_i hd
      split
      · rename_i hs
        have hlen := (startsWith_facts hs _ rfl).1
        obtain ⟨u, hu⟩ := startsWith_iff.1 hs
        rw [wp_bind]
        refine flushChars_spec h.good h.at_ (fun _ => template_tok h (Or.inr (Or.inr (Or.inr hs))))
          fun s1 g1 l1 e1 i1 => ?_
        have hul : s.rem.length = u.length + 2 := by rw [hu]; simp
        rw [wp_bind]
        refine wp_step_emitAdv g1 (by omega) (by omega) (by simp) (Tok.substitution (by rw [e1, hu]; simp))
          fun s2 g2 l2 e2 i2 x2 => ?_
        rw [wp_bind]
        refine wp_mono (hA s2 g2 (by omega)) ?_
        rintro _ s3 ⟨g3, i3, h3, _⟩
        rw [wp_bind]
        refine wp_mono (closeSubstitution_spec g3 h3) ?_
        rintro _ s4 ⟨g4, i4⟩
        rw [wp_pure]
        exact ⟨⟨s4.idx, g4, rfl, .zero⟩, by omega⟩
      · rename_i hs
        exact step1 c t hr hc (by simpa using hs) (by rintro rfl; exact absurd hd (by decide))
    rename_i hd
    have hs : startsWith s.rem b!"${" = false := by
      cases he : startsWith s.rem b!"${" with
      | false => rfl
      | true =>
        have := get_of_startsWith he
        rw [hr] at this
        simp at this
        exact absurd this hd
    split
    · rename_i hb
      have hq : s.rem[0]? = some c!"\\" := by rw [hr, hb]; rfl
      dsimp only
      split
      · rename_i hn
        obtain ⟨h1, h2, h3, h4, h5⟩ := continuation_facts hn
        rw [wp_bind, wp_hassert]
        refine ⟨by simpa using h1, ?_⟩
        rw [wp_bind]
        refine flushChars_spec h.good h.at_ (fun _ => template_tok h (Or.inr (Or.inr (Or.inl hq))))
          fun s1 g1 l1 e1 i1 => ?_
        rw [wp_bind]
        refine wp_step_emitAdv g1 (by omega) (by omega) (by simp) (Tok.continuation (by rw [e1, hr, hb]; simp) (by rw [e1]; exact h4))
          fun s2 g2 l2 e2 i2 x2 => ?_
        have hp : TPiece s2.rem (matchLineContinuation s.rem - 1) := by
          rw [e2, e1]
          exact .of_plain (by simp; omega) h5
        have := InTemplate.chars (v := 0) (p := s2.idx) ⟨g2, rfl, .zero⟩ hp
        rw [Nat.zero_add] at this
        refine wp_mono this ?_
        rintro (v' | a) s3 h6
        · exact ⟨h6.1, by have := h6.2; omega⟩
        · exact absurd h6 (by simp)
      · split
        · rename_i hn he
          cases t with
          | nil => rw [hr, hb] at he; exact absurd rfl he
          | cons d t =>
          have hf := matchEscape_facts d t
          rw [← hb, ← hr] at hf
          rw [wp_bind]
          refine flushChars_spec h.good h.at_ (fun _ => template_tok h (Or.inr (Or.inr (Or.inl hq))))
            fun s1 g1 l1 e1 i1 => ?_
          have hf2 := hf.two
          rw [wp_bind]
          refine wp_step_emitAdv g1 (by omega) (by rw [e1]; exact hf.le) (by split <;> simp) ?_ fun s2 g2 l2 e2 i2 x2 => ?_
          · rw [e1]
            cases he : (matchEscape s.rem).erroneous with
            | true => exact Tok.badEscape (hf.bad he) hf.extent
            | false => exact Tok.escape (hf.good he)
          rw [wp_pure]
          exact ⟨⟨s2.idx, g2, rfl, .zero⟩, by omega⟩
        · rename_i hn he
          refine step1 c t hr hc hs fun _ => ?_
          cases t with
          | nil => rfl
          | cons d t =>
            have hf := (matchEscape_facts d t).two
            rw [← hb, ← hr] at hf
            omega
    · rename_i hb
      exact step1 c t hr hc hs fun h => absurd h hb

theorem expectTemplate_spec {again : HM Elem Unit} (g : Good (R m env) env s) (hA : AgainOk m env s.rem.length again) :
    Step m env s (expectTemplate again) (s.rem[0]? ≠ some c!"`") := by
  unfold Step expectTemplate
  rw [wp_bind, wp_rem]
  split
  · rename_i hs
    obtain ⟨t, ht⟩ := startsWith_one hs
    have hrl : s.rem.length = t.length + 1 := by rw [ht]; rfl
    unfold consumeTemplate
    simp only [wp_bind]
    rw [wp_rem, wp_hassert]
    refine ⟨hs, ?_⟩
    refine wp_step_emitAdv g (by omega) (by omega) (by simp) (Tok.quote (by rw [ht]; simp)) fun s1 g1 l1 e1 i1 x1 => ?_
    have hl := g.len
    refine wp_mono (wp_loop (Q := fun _ s' => Good (R m env) env s' ∧ s1.idx ≤ s'.idx)
      (fun v s' => s1.idx ≤ s'.idx ∧ ∃ p, InTemplate m env v p s') (fun _ s' => s'.rem.length) ?_ _ 0 s1
      ⟨by omega, s1.idx, g1, rfl, .zero⟩ (by omega)) ?_
    · rintro v s2 ⟨i2, p, h2⟩
      have l2 := h2.good.len
      refine wp_mono (templateStep_spec h2 (hA.mono (by omega))) ?_
      rintro (v' | a) s3 h3
      · obtain ⟨⟨p, h4⟩, i3⟩ := h3
        have l3 := h4.good.len
        exact ⟨⟨by omega, p, h4⟩, by omega⟩
      · exact ⟨h3.1, by have := h3.2; omega⟩
    · rintro _ s2 ⟨g2, i2⟩
      rw [wp_pure]
      exact Or.inl ⟨rfl, g2, by omega, fun _ => Or.inl ⟨_, get_of_startsWith hs, by decide⟩⟩
  · rename_i hs
    rw [wp_pure]
    refine Or.inr ⟨rfl, rfl, fun hc => hs ?_⟩
    cases hr : s.rem with
    | nil => rw [hr] at hc; simp at hc
    | cons a t => rw [hr] at hc; simp at hc; simp [hc]

/-! ## Regular expressions, numbers, names and symbols -/

theorem expectRegex_spec (g : Good (R m env) env s) : Step m env s expectRegex True := by
  unfold Step expectRegex
  rw [wp_bind, wp_get]
  split
  · rw [wp_pure]
    exact Or.inr ⟨rfl, rfl, trivial⟩
  rw [wp_bind, wp_rem]
  split
  · rw [wp_pure]
    exact Or.inr ⟨rfl, rfl, trivial⟩
  rename_i h
  have hs : startsWith s.rem b!"/" = true := by
    cases he : startsWith s.rem b!"/" with
    | true => rfl
    | false => rw [he] at h; simp at h
  obtain ⟨t, ht⟩ := startsWith_one hs
  have hrl : s.rem.length = t.length + 1 := by rw [ht]; rfl
  have hd : s.rem.drop 1 = t := by rw [ht]; rfl
  rw [hd]
  split
  · rename_i size hz
    obtain ⟨n, h1, h2, h3⟩ := regex_loop t 0 size hz
    rw [Nat.zero_add] at h1
    subst h1
    obtain ⟨hlt, h3⟩ := List.getElem?_eq_some_iff.1 h3
    rw [wp_bind]
    refine wp_step_emitAdv g (by omega) (by omega) (by simp) (Tok.quote (by rw [ht]; simp)) fun s1 g1 l1 e1 i1 x1 => ?_
    rw [hd] at e1
    rw [wp_bind]
    by_cases hz0 : size = 0
    · -- there would be a line comment
      subst hz0
      exfalso
      have : startsWith s.rem b!"//" = true := by
        rw [ht, List.getElem_zero] at *
        cases t with
        | nil => simp at hlt
        | cons a t => simp at h3; subst h3; simp
      rw [this] at h
      simp at h
    refine wp_step_emitAdv g1 (by omega) (by rw [e1]; omega) (by simp) (Tok.regex (by rw [e1]; exact h2) ?_)
      fun s2 g2 l2 e2 i2 x2 => ?_
    · rw [e1, ← hd, prevByte_drop g (by omega) (by omega), ht]; rfl
    rw [e1] at e2
    have e2' : s2.rem = c!"/" :: t.drop (size + 1) := by rw [e2, List.drop_eq_getElem_cons hlt, h3]
    rw [wp_bind]
    refine wp_step_emitAdv g2 (by omega) (by rw [e2']; simp) (by simp) (Tok.quote (by rw [e2']; simp)) fun s3 g3 l3 e3 i3 x3 => ?_
    have e3' : s3.rem = t.drop (size + 1) := by rw [e3, e2']; rfl
    rw [wp_bind]
    obtain ⟨h4, h5⟩ := lengthWhile_spec isPart Part part_iff (t.drop (size + 1))
    refine wp_step_emitAdvIf g3 (by rw [e3']; exact h4) (by simp) (fun _ => Tok.flags (by rw [e3']; exact h5) ?_)
      fun s4 g4 l4 e4 i4 x4 => ?_
    · rw [e3, prevByte_drop g2 (by omega) (by rw [e2']; simp), e2']; rfl
    rw [wp_bind]
    refine wp_step_set g4 fun s5 g5 l5 e5 i5 x5 => ?_
    rw [wp_pure]
    exact Or.inl ⟨rfl, g5, by omega, fun _ => Or.inl ⟨_, get_of_startsWith hs, by decide⟩⟩
  · rw [wp_pure]
    exact Or.inr ⟨rfl, rfl, trivial⟩

theorem expectNumber_spec (g : Good (R m env) env s) :
    Step m env s expectNumber (∀ c, s.rem[0]? = some c → ¬ DecDigit c) := by
  unfold Step expectNumber
  rw [wp_bind, wp_rem]
  dsimp only
  split
  · rename_i h
    rw [wp_pure]
    exact Or.inr ⟨rfl, rfl, matchNumber_digit h⟩
  · rename_i h
    obtain ⟨p, rest, h1, h2, h3, h4⟩ := matchNumber_facts h
    have ht : s.rem.take (matchNumber s.rem).length = NumberParts.text p := by
      rw [h2.length, h3, List.take_left]
    rw [wp_bind]
    refine wp_number_tok (N := numerals) (by rintro c hc; cases hc; decide) (by decide) (fun _ _ _ hn => Tok.number hn) h1 h2 h3 ?_ g
      fun s1 g1 l1 e1 i1 x1 => ?_
    · intro he
      rcases h4 he with h5 | ⟨h5, h6⟩
      · exact Tok.number (.error ht h1 h5)
      · exact Tok.badSuffix ht h1 h5 h6
    · rw [wp_bind]
      refine wp_step_set g1 fun s2 g2 l2 e2 i2 x2 => ?_
      rw [wp_pure]
      have h0 := h2.nonempty
      refine Or.inl ⟨rfl, g2, by omega, fun _ => ?_⟩
      refine exact_simple (n := (matchNumber s.rem).length) (by omega) (by rw [x2]; simp) ?_
      rw [ht]
      exact parts_simple h1

theorem expectPrivateIdentifier_spec (g : Good (R m env) env s) : Step m env s expectPrivateIdentifier True := by
  unfold Step expectPrivateIdentifier
  rw [wp_bind, wp_rem]
  dsimp only
  split
  · rename_i h
    unfold matchPrivateIdentifier at h ⊢
    split at h
    · exact absurd rfl h
    rename_i hs
    rw [if_neg hs]
    have hs : startsWith s.rem b!"#" = true := by simpa using hs
    obtain ⟨t, ht⟩ := startsWith_one hs
    have hd : s.rem.drop 1 = t := by rw [ht]; rfl
    rw [hd] at h ⊢
    obtain ⟨h1, h2⟩ := matchIdentifier_facts t
    dsimp only at h ⊢
    split at h
    · exact absurd rfl h
    rename_i h0
    rw [if_neg h0]
    obtain ⟨h2, h3, h4⟩ := h2.resolve_left fun h => h0 h.1
    rw [wp_bind]
    refine wp_step_emitAdv g (by omega) (by rw [ht]; simp; omega) (by simp) ?_ fun s1 g1 l1 e1 i1 x1 => ?_
    · rw [ht, Nat.add_comm]
      exact Tok.privateName h3
    rw [wp_bind]
    refine wp_step_set g1 fun s2 g2 l2 e2 i2 x2 => ?_
    rw [wp_pure]
    refine Or.inl ⟨rfl, g2, by omega, fun _ => ?_⟩
    refine exact_simple (n := 1 + matchIdentifier t) (by omega) (by rw [x2]; simp) ?_
    rw [ht, Nat.add_comm, List.take_succ_cons]
    intro c hc
    rcases List.mem_cons.1 hc with rfl | hc
    · decide
    · exact h4 c hc
  · rw [wp_pure]
    exact Or.inr ⟨rfl, rfl, trivial⟩

theorem expectIdentifier_spec (g : Good (R m env) env s) :
    Step m env s (expectIdentifier m) (∀ k, ¬ Ident s.rem k) := by
  unfold Step expectIdentifier
  rw [wp_bind, wp_rem]
  dsimp only
  split
  · rename_i h
    rw [wp_pure]
    refine Or.inr ⟨rfl, rfl, ?_⟩
    rcases (matchIdentifier_facts s.rem).2 with h1 | h1
    · exact h1.2
    · omega
  · rename_i h
    obtain ⟨h1, h2⟩ := matchIdentifier_facts s.rem
    obtain ⟨h2, h3, h4⟩ := h2.resolve_left fun h' => h h'.1
    split
    · rename_i hc
      rw [wp_bind]
      refine wp_step_emitAdv g h2 h1 (by simp) (Tok.name h3 ?_) fun s1 g1 l1 e1 i1 x1 => ?_
      · intro ty hw
        rw [(highlightByCode_iff m _ ty).2 hw] at hc
        cases hc
      rw [wp_bind]
      refine wp_step_set g1 fun s2 g2 l2 e2 i2 x2 => ?_
      rw [wp_pure]
      exact Or.inl ⟨rfl, g2, by omega, fun _ => exact_simple (by omega) (by rw [x2]; simp) h4⟩
    · rename_i ty hc
      have hw := (highlightByCode_iff m _ ty).1 hc
      rw [wp_bind]
      refine wp_step_emitAdv g h2 h1 (word_some hw) (Tok.keyword h3 hw) fun s1 g1 l1 e1 i1 x1 => ?_
      rw [wp_bind]
      refine wp_step_set g1 fun s2 g2 l2 e2 i2 x2 => ?_
      rw [wp_pure]
      exact Or.inl ⟨rfl, g2, by omega, fun _ => exact_simple (by omega) (by rw [x2]; split <;> simp) h4⟩

theorem expectSymbol_spec (g : Good (R m env) env s) :
    Step m env s (expectSymbol m) (∀ w ∈ symbols, startsWith s.rem w = true → ∀ ty, ¬ Word m w ty) := by
  unfold Step expectSymbol
  rw [wp_bind, wp_rem]
  rcases matchSymbol_facts m s.rem with ⟨w, ty, h1, h2, h3, h4, h5, h6, h7, h8, h9⟩ | ⟨h1, h2⟩
  · rw [h1]
    dsimp only
    rw [h2]
    dsimp only
    rw [wp_bind]
    refine wp_step_emitAdv g h4 h5 h3 (Tok.symbol h8 (by rw [h7]; exact h9)) fun s1 g1 l1 e1 i1 x1 => ?_
    rw [wp_bind]
    refine wp_step_set g1 fun s2 g2 l2 e2 i2 x2 => ?_
    rw [wp_pure]
    refine Or.inl ⟨rfl, g2, by omega, fun _ => ?_⟩
    by_cases hc : ∃ c, s.rem[0]? = some c ∧ c ∈ b!"{}`/<"
    · exact Or.inl hc
    refine exact_simple (n := w.length) (by omega) (by rw [x2]; split <;> simp) ?_
    rw [h7]
    refine symbols_simple h6 fun c h0 hm => hc ⟨c, ?_, ?_⟩
    · rw [← h7, List.getElem?_take, if_pos (by omega)] at h0
      exact h0
    · simp at hm ⊢
      rcases hm with rfl | rfl | rfl | rfl <;> simp
  · split
    · rw [wp_pure]
      exact Or.inr ⟨rfl, rfl, h2⟩
    · rename_i w hw
      rw [h1 w hw]
      rw [wp_pure]
      exact Or.inr ⟨rfl, rfl, h2⟩

/-! ## JSX -/

/-- There is a `<` in the text that was passed, or at the current position. -/
def SawTag (env : HEnv) (s : HS Elem) : Prop := ∃ i, i ≤ s.idx ∧ env.src[i]? = some c!"<"

theorem SawTag.mono {s' : HS Elem} (h : SawTag env s) (hi : s.idx ≤ s'.idx) : SawTag env s' := by
  obtain ⟨i, h1, h2⟩ := h
  exact ⟨i, by omega, h2⟩

theorem sawTag_here (g : Good (R m env) env s) (h : s.rem[0]? = some c!"<") : SawTag env s :=
  ⟨s.idx, by omega, by rw [g.rem] at h; simpa using h⟩

theorem braces_code (hB : BracesFit env.src) (g : Good (R m env) env s) (hs : SawTag env s)
    (h : s.rem[0]? = some c!"{") : ∃ w t, s.rem = c!"{" :: (w ++ c!"}" :: t) ∧ Code w := by
  obtain ⟨i, h1, h2⟩ := hs
  have h3 : env.src[s.idx]? = some c!"{" := by rw [g.rem] at h; simpa using h
  have : i ≠ s.idx := by
    rintro rfl
    rw [h3] at h2
    simp at h2
  obtain ⟨w, t, h4, h5⟩ := hB i s.idx (by omega) h2 h3
  refine ⟨w, t, ?_, h5⟩
  obtain ⟨hlt, h3⟩ := List.getElem?_eq_some_iff.1 h3
  rw [g.rem, List.drop_eq_getElem_cons hlt, h3, h4]
  simp

theorem highlightJsxBraced_spec {again : HM Elem Unit} (hB : BracesFit env.src) (g : Good (R m env) env s)
    (hA : AgainOk m env s.rem.length again) (hs : SawTag env s) (h : s.rem[0]? = some c!"{") :
    (matchJsxBraced s.rem).length ≠ 0 ∧ (matchJsxBraced s.rem).length ≤ s.rem.length ∧
      s.rem[(matchJsxBraced s.rem).length - 1]? = some c!"}" ∧
      Takes m env s (matchJsxBraced s.rem).length (highlightJsxBraced again (matchJsxBraced s.rem)) := by
  obtain ⟨w, t, hr, hc⟩ := braces_code hB g hs h
  have hm : matchJsxBraced s.rem = ⟨w.length + 2, true⟩ := by rw [hr]; exact matchJsxBraced_code hc
  have hrl : s.rem.length = w.length + t.length + 2 := by rw [hr]; simp; omega
  rw [hm]
  refine ⟨by simp, by simp; omega, by rw [hr]; simp, ?_⟩
  unfold Takes highlightJsxBraced
  rw [wp_bind, wp_hassert]
  refine ⟨by simp, ?_⟩
  rw [wp_bind, wp_rem, wp_bind, wp_hassert]
  refine ⟨by rw [hr]; simp, ?_⟩
  rw [wp_bind]
  refine wp_step_emitAdv g (by omega) (by omega) (by simp) (Tok.brace (by rw [hr]; simp)) fun s1 g1 l1 e1 i1 x1 => ?_
  have hl := g.len
  have e1' : s1.rem = w ++ b!"}" ++ t := by rw [e1, hr]; simp
  have fin : ∀ s2 : HS Elem, Good (R m env) env s2 → s2.rem = b!"}" ++ t →
      wp (HM.emitAdvIf (if (⟨w.length + 2, true⟩ : Enclosed).terminated = true then 1 else 0) .symbol_brace)
        (fun _ s' => Good (R m env) env s' ∧ s'.rem = s.rem.drop (w.length + 2) ∧ s'.idx = s.idx + (w.length + 2)) env s2 := by
    intro s2 g2 e2
    have l2 := g2.len
    refine wp_step_emitAdvIf g2 (by rw [e2]; simp) (by simp) (fun _ => Tok.brace (by rw [e2]; simp)) fun s3 g3 l3 e3 i3 x3 => ?_
    have e2l : s2.rem.length = t.length + 1 := by rw [e2]; simp
    simp only [if_true] at e3 i3
    refine ⟨g3, ?_, by omega⟩
    rw [e3, e2, hr]
    have : (c!"{" :: (w ++ c!"}" :: t)).drop (w.length + 2) = t := by
      rw [List.drop_succ_cons, ← List.drop_drop, List.drop_left]
      rfl
    rw [this]
    rfl
  simp only [if_true]
  split
  · rw [wp_bind]
    refine wp_mono (hA s1 g1 (by omega)) ?_
    rintro _ s2 ⟨g2, i2, _, h2⟩
    exact fin s2 g2 (h2 w t e1' hc)
  · rename_i h0
    have : w = [] := List.eq_nil_of_length_eq_zero (by simpa using h0)
    subst this
    exact fin s1 g1 (by rw [e1']; rfl)

theorem jsxCall_spec {again : HM Elem Unit} (hm : m = .javascript) (hS : StringsFit env.src) (hB : BracesFit env.src)
    (g : Good (R m env) env s) (hA : AgainOk m env s.rem.length again) (hs : SawTag env s) {c : JsxCall}
    (h : CallOk s.rem c) : Takes m env s c.length (jsxCall again c) ∧ 0 < c.length ∧ c.length ≤ s.rem.length := by
  have one : ∀ b : UInt8, s.rem[0]? = some b → b ∈ b!"<>/=" →
      Takes m env s 1 (HM.emitAdv 1 .symbol_punc) ∧ 0 < 1 ∧ 1 ≤ s.rem.length := by
    intro b hb hm'
    obtain ⟨hlt, hb'⟩ := List.getElem?_eq_some_iff.1 hb
    refine ⟨?_, by omega, by omega⟩
    unfold Takes
    refine wp_step_emitAdv g (by omega) (by omega) (by simp) (Tok.jsxSymbol hm ?_) fun s1 g1 l1 e1 i1 x1 => ⟨g1, e1, i1⟩
    rw [take_one_iff.2 hb]
    simp at hm' ⊢
    grind
  cases c with
  | whitespace n =>
    obtain ⟨h1, rfl⟩ := h
    obtain ⟨h2, h3, h4⟩ := whitespace_facts s.rem
    refine ⟨?_, by simp [JsxCall.length]; omega, h2⟩
    unfold Takes jsxCall
    exact wp_step_advance g h2 (Gap.white h3) fun s1 g1 l1 e1 i1 x1 => ⟨g1, e1, i1⟩
  | blockComment b =>
    obtain ⟨h1, rfl⟩ := h
    refine ⟨highlightBlockComment_spec g h1, by simp [JsxCall.length]; omega, ?_⟩
    have := (blockComment_facts s.rem).1
    simp only [JsxCall.length, matchBlockComment_eq]
    exact this
  | lineComment n =>
    obtain ⟨h1, rfl⟩ := h
    refine ⟨highlightLineComment_spec g h1, by simp [JsxCall.length]; omega, ?_⟩
    rcases matchLineComment_facts s.rem with ⟨h0, _⟩ | ⟨_, h2, _, _⟩
    · exact absurd h0 h1
    · exact h2
  | openingSymbol => exact one _ h (by decide)
  | closingSymbol =>
    rcases h with h | h
    · exact one _ h (by decide)
    · exact one _ h (by decide)
  | attributeEquals => exact one _ h (by decide)
  | elementName n =>
    obtain ⟨h1, rfl⟩ := h
    obtain ⟨h2, h3⟩ := matchElementName_facts s.rem
    refine ⟨?_, by simp [JsxCall.length]; omega, h2⟩
    unfold Takes jsxCall
    exact wp_step_emitAdv g (by omega) h2 (by simp) (Tok.jsxName hm (Or.inr (h3 h1)))
      fun s1 g1 l1 e1 i1 x1 => ⟨g1, e1, i1⟩
  | attributeName n =>
    obtain ⟨h1, rfl⟩ := h
    obtain ⟨h2, h3⟩ := matchAttributeName_facts s.rem
    refine ⟨?_, by simp [JsxCall.length]; omega, h2⟩
    unfold Takes jsxCall
    exact wp_step_emitAdv g (by omega) h2 (by simp) (Tok.jsxName hm (Or.inl (h3 h1)))
      fun s1 g1 l1 e1 i1 x1 => ⟨g1, e1, i1⟩
  | stringLiteral r =>
    obtain ⟨h1, rfl⟩ := h
    refine ⟨?_, by simp [JsxCall.length]; omega, ?_⟩
    · refine wp_mono (highlightStringLiteral_spec hS g h1) ?_
      rintro _ s1 ⟨g1, e1, i1, x1⟩
      exact ⟨g1, e1, i1⟩
    · obtain ⟨q, t, hr, hq⟩ := stringLiteral_length h1
      obtain ⟨n, _, h2, h3⟩ := stringLiteral_facts (q := q) (t := t) hq
      rw [hr]
      simp only [JsxCall.length, List.length_cons]
      rcases h3 with ⟨h3, h4⟩ | ⟨h3, h4⟩
      · have := (List.getElem?_eq_some_iff.1 h4).1
        rw [h3]; simp; omega
      · rw [h3]; simp; omega
  | braced b =>
    obtain ⟨h1, rfl, h2⟩ := h
    have hb : s.rem[0]? = some c!"{" := by
      unfold matchJsxBraced at h1
      split at h1
      · exact absurd rfl h1
      · rename_i h0
        exact get_of_startsWith (p := []) (by simpa using h0)
    obtain ⟨h3, h4, h5, h6⟩ := highlightJsxBraced_spec hB g hA hs hb
    refine ⟨?_, by simp [JsxCall.length]; omega, h4⟩
    unfold Takes jsxCall
    rw [wp_bind, wp_hassert]
    refine ⟨?_, h6⟩
    obtain ⟨w, t, hr, hc⟩ := braces_code hB g hs hb
    rw [hr, matchJsxBraced_code hc]
    simp

theorem jsxCalls_spec {again : HM Elem Unit} (hm : m = .javascript) (hS : StringsFit env.src) (hB : BracesFit env.src) :
    ∀ (l : List JsxCall) {s : HS Elem}, Good (R m env) env s → AgainOk m env s.rem.length again → SawTag env s →
      CallsOk s.rem l → Takes m env s (callsLength l) (jsxCalls again l) ∧ callsLength l ≤ s.rem.length
  | [], s, g, hA, hs, h => by
    refine ⟨?_, by simp [callsLength]⟩
    unfold Takes jsxCalls
    rw [wp_pure]
    exact ⟨g, by simp [callsLength], by simp [callsLength]⟩
  | c :: l, s, g, hA, hs, h => by
    cases h with
    | cons h r =>
    obtain ⟨h1, h2, h3⟩ := jsxCall_spec hm hS hB g hA hs h
    have hl := g.len
    rw [callsLength_cons]
    constructor
    · unfold Takes jsxCalls
      rw [wp_bind]
      refine wp_mono h1 ?_
      rintro _ s1 ⟨g1, e1, i1⟩
      have l1 := g1.len
      obtain ⟨h4, _⟩ := jsxCalls_spec hm hS hB l g1 (hA.mono (by omega)) (hs.mono (by omega)) (by rw [e1]; exact r)
      refine wp_mono h4 ?_
      rintro _ s2 ⟨g2, e2, i2⟩
      exact ⟨g2, by rw [e2, e1, List.drop_drop], by omega⟩
    · have hs1 : ∃ s1 : HS Elem, Good (R m env) env s1 ∧ s1.rem = s.rem.drop c.length ∧ s1.idx = s.idx + c.length := by
        obtain ⟨a, s1, _, h4⟩ := h1
        exact ⟨s1, h4⟩
      obtain ⟨s1, g1, e1, i1⟩ := hs1
      have l1 := g1.len
      obtain ⟨_, h5⟩ := jsxCalls_spec hm hS hB l g1 (hA.mono (by omega)) (hs.mono (by omega)) (by rw [e1]; exact r)
      omega

theorem consumeJsxTag_spec {again : HM Elem Unit} (hm : m = .javascript) (hS : StringsFit env.src) (hB : BracesFit env.src)
    (g : Good (R m env) env s) (hA : AgainOk m env s.rem.length again) (h : s.rem[0]? = some c!"<") :
    Takes m env s (callsLength (tagCalls false s.rem).1) (consumeJsxTag again) ∧
      callsLength (tagCalls false s.rem).1 ≤ s.rem.length ∧ 0 < callsLength (tagCalls false s.rem).1 := by
  obtain ⟨h1, h2⟩ := jsxCalls_spec hm hS hB _ g hA (sawTag_here g h) (tagCalls_ok false s.rem).calls
  refine ⟨?_, h2, ?_⟩
  · unfold Takes consumeJsxTag
    rw [wp_bind, wp_rem]
    exact h1
  · have : startsWith s.rem b!"<" = true := by
      obtain ⟨hlt, h⟩ := List.getElem?_eq_some_iff.1 h
      have := List.drop_eq_getElem_cons hlt
      rw [List.drop_zero, h] at this
      rw [this]; simp
    obtain ⟨l, hl⟩ := tagCalls_start false this
    rw [hl, callsLength_cons]
    simp [JsxCall.length]
    omega

theorem tagCalls_same {t : Bytes} (h : (tagCalls true t).2.isSome = true) : tagCalls false t = tagCalls true t := by
  unfold tagCalls at h ⊢
  dsimp only at h ⊢
  split
  · rfl
  rename_i h1
  rw [if_neg h1] at h
  split
  · rfl
  rename_i h2
  rw [if_neg h2] at h
  split
  · rename_i h3
    rw [if_pos h3] at h
    simp at h
  · rfl

/-- The state of the loop over the children of an element. -/
structure Children (m : Dialect) (env : HEnv) (rem : Bytes) (s : HS Elem) : Prop where
  good : Good (R m env) env s
  eq : rem = s.rem
  prev : ∃ c, prevByte env.src s.rem = some c ∧ c ∈ b!"<>&{};"

theorem Children.next {s' : HS Elem} {n : Nat} (g : Good (R m env) env s) (g' : Good (R m env) env s')
    (e : s'.rem = s.rem.drop n) (hn : 0 < n) (hl : n ≤ s.rem.length) {c : UInt8} (hc : s.rem[n - 1]? = some c)
    (hm : c ∈ b!"<>&{};") : Children m env (s.rem.drop n) s' :=
  ⟨g', e.symm, c, by rw [e, prevByte_drop g hn hl]; exact hc, hm⟩

theorem childrenStep_spec {again : HM Elem Unit} (hm : m = .javascript) (hS : StringsFit env.src) (hB : BracesFit env.src)
    {v : Bytes × Int} (h : Children m env v.1 s) (hs : SawTag env s) (hA : AgainOk m env s.rem.length again) :
    wp (childrenStep again v) (fun r s' => match r with
      | .inl v' => Children m env v'.1 s' ∧ s.idx < s'.idx
      | .inr _ => Good (R m env) env s' ∧ s.idx ≤ s'.idx) env s := by
  obtain ⟨rem, depth⟩ := v
  obtain ⟨g, e, hp⟩ := h
  simp only at e
  subst e
  have hl := g.len
  unfold childrenStep
  dsimp only
  split
  · rw [wp_pure]
    exact ⟨g, by omega⟩
  rcases find_if_longest s.rem (fun c => c ∈ b!"&{}<>") (fun c => c ∉ b!"&{}<>") (fun c => by simp) 0 (by omega) with
    ⟨j, c, h1, _, h2, h3, h4, h5⟩ | ⟨h1, h2⟩
  · rw [h1]
    dsimp only
    rw [wp_bind]
    refine wp_step_advance g (by omega) (Gap.jsxText hm hp (by simpa [JsxText] using h5)) fun s1 g1 l1 e1 i1 x1 => ?_
    rw [← e1]
    have hA1 : AgainOk m env s1.rem.length again := hA.mono (by omega)
    have hc : s1.rem[0]? = some c := by rw [e1, List.getElem?_drop]; exact h3
    have hr0 : 0 < s1.rem.length := (List.getElem?_eq_some_iff.1 hc).1
    have hh : s1.rem.head? = some c := by rw [List.head?_eq_getElem?]; exact hc
    have ht : s1.rem.take 1 = [c] := take_one_iff.2 hc
    have err : ∀ (b : UInt8), c = b → b ∈ b!"<>}" →
        wp (do HM.emitAdv 1 .error; pure (Sum.inl (s1.rem.drop 1, depth) : (Bytes × Int) ⊕ Unit)) (fun r s' => match r with
          | .inl v' => Children m env v'.1 s' ∧ s.idx < s'.idx
          | .inr _ => Good (R m env) env s' ∧ s.idx ≤ s'.idx) env s1 := by
      rintro b rfl hb
      rw [wp_bind]
      refine wp_step_emitAdv g1 (by omega) (by omega) (by simp) (Tok.stray hm (by rw [ht]; simpa using hb))
        fun s2 g2 l2 e2 i2 x2 => ?_
      rw [wp_pure]
      exact ⟨.next g1 g2 e2 (by omega) (by omega) hc (by simp at hb ⊢; grind), by omega⟩
    rw [hh]
    simp only [Option.some.injEq]
    split
    · rename_i h6
      rcases Html.matchReference_spec s1.rem with ⟨h7, h8⟩ | ⟨h7, h8⟩
      · rw [if_neg (by simpa using h7), wp_bind]
        refine wp_step_advance g1 (by omega) (Gap.jsxAmp hm (by rw [ht, h6]) h8) fun s2 g2 l2 e2 i2 x2 => ?_
        rw [wp_pure]
        exact ⟨.next g1 g2 e2 (by omega) (by omega) hc (by rw [h6]; decide), by omega⟩
      · rw [if_pos h7, wp_bind]
        obtain ⟨h9, h10, h11, _⟩ := Html.ref_le h8
        refine wp_step_emitAdv g1 (by omega) (by omega) (by simp) (Tok.reference hm h8) fun s2 g2 l2 e2 i2 x2 => ?_
        rw [wp_pure]
        exact ⟨.next g1 g2 e2 (by omega) (by omega) h11 (by decide), by omega⟩
    split
    · rename_i h6 h7
      subst h7
      split
      · exact err _ rfl (by decide)
      · rename_i length ty h8
        unfold matchTag at h8
        simp only [Option.map_eq_some_iff, Prod.mk.injEq] at h8
        obtain ⟨ty', h8, rfl, rfl⟩ := h8
        obtain ⟨h9, h10, h11⟩ := consumeJsxTag_spec hm hS hB g1 hA1 hc
        obtain ⟨_, h12⟩ := (tagCalls_ok false s1.rem).ends (by rw [h8]; rfl)
        rw [wp_bind]
        refine wp_mono h9 ?_
        rintro _ s2 ⟨g2, e2, i2⟩
        have hc2 := Children.next g1 g2 e2 h11 h10 h12 (by decide)
        repeat' split
        all_goals rw [wp_pure]
        · exact ⟨hc2, by omega⟩
        · exact ⟨g2, by omega⟩
        · exact ⟨hc2, by omega⟩
        · exact ⟨hc2, by omega⟩
    split
    · rename_i h6 h7 h8
      subst h8
      obtain ⟨h9, h10, h11, h12⟩ := highlightJsxBraced_spec hB g1 hA1 (hs.mono (by omega)) hc
      rw [if_pos h9, wp_bind]
      refine wp_mono h12 ?_
      rintro _ s2 ⟨g2, e2, i2⟩
      rw [wp_pure]
      exact ⟨.next g1 g2 e2 (by omega) h10 h11 (by decide), by omega⟩
    · rename_i h6 h7 h8
      refine err c rfl ?_
      simp at h4 ⊢
      grind
  · rw [h1]
    dsimp only
    rw [wp_bind]
    refine wp_step_advance g (by omega) (Gap.jsxText hm hp (by simpa [JsxText] using h2)) fun s1 g1 l1 e1 i1 x1 => ?_
    rw [wp_pure]
    exact ⟨g1, by omega⟩

theorem expectJsx_spec {again : HM Elem Unit} (hm : m = .javascript) (hS : StringsFit env.src) (hB : BracesFit env.src)
    (g : Good (R m env) env s) (hA : AgainOk m env s.rem.length again) : Step m env s (expectJsx again) True := by
  unfold Step expectJsx
  rw [wp_bind, wp_rem]
  split
  · rw [wp_pure]
    exact Or.inr ⟨rfl, rfl, trivial⟩
  rename_i length ty h
  obtain ⟨h1, h2⟩ := matchTag_type h
  have hc := get_of_startsWith h2
  obtain ⟨h3, h4, h5⟩ := consumeJsxTag_spec hm hS hB g hA hc
  unfold matchTag at h
  simp only [Option.map_eq_some_iff, Prod.mk.injEq] at h
  obtain ⟨ty', h6, _, rfl⟩ := h
  rw [wp_bind]
  refine wp_mono h3 ?_
  rintro _ s1 ⟨g1, e1, i1⟩
  have fin : ∀ s2 : HS Elem, Good (R m env) env s2 → s1.idx ≤ s2.idx →
      wp (do HM.set .div; pure true) (fun b s' =>
        (b = true ∧ Good (R m env) env s' ∧ s.idx < s'.idx ∧ (s.ext ≠ .hashbang → Exact s s')) ∨
          (b = false ∧ s' = s ∧ True)) env s2 := by
    intro s2 g2 i2
    rw [wp_bind]
    refine wp_step_set g2 fun s3 g3 l3 e3 i3 x3 => ?_
    rw [wp_pure]
    exact Or.inl ⟨rfl, g3, by omega, fun _ => Or.inl ⟨_, hc, by decide⟩⟩
  have hl := g.len
  have l1 := g1.len
  split
  · rename_i h7
    rw [wp_bind, wp_hassert]
    refine ⟨?_, ?_⟩
    · rcases h1 with h1 | h1 | h1
      · simp [h1]
      · exact absurd h1 h7
      · simp [h1]
    rw [wp_bind]
    unfold consumeJsxChildren
    rw [wp_bind, wp_rem]
    have hsame : tagCalls false s.rem = tagCalls true s.rem := tagCalls_same (by rw [h6]; rfl)
    obtain ⟨_, h8⟩ := (tagCalls_ok false s.rem).ends (by rw [hsame, h6]; rfl)
    have hch : Children m env s1.rem s1 := by
      have := Children.next g g1 e1 h5 h4 h8 (by decide)
      rwa [← e1] at this
    refine wp_mono (wp_loop (Q := fun _ s' => Good (R m env) env s' ∧ s1.idx ≤ s'.idx)
      (fun v s' => s1.idx ≤ s'.idx ∧ Children m env v.1 s') (fun _ s' => s'.rem.length) ?_ _ _ s1
      ⟨by omega, hch⟩ (by omega)) ?_
    · rintro v s2 ⟨i2, h9⟩
      have l2 := h9.good.len
      refine wp_mono (childrenStep_spec hm hS hB h9 ((sawTag_here g hc).mono (by omega)) (hA.mono (by omega))) ?_
      rintro (v' | a) s3 h10
      · have l3 := h10.1.good.len
        have i3 := h10.2
        exact ⟨⟨by omega, h10.1⟩, by omega⟩
      · exact ⟨h10.1, by have := h10.2; omega⟩
    · rintro _ s2 ⟨g2, i2⟩
      exact fin s2 g2 i2
  · exact fin s1 g1 (by omega)

theorem expectJsxIn_spec {again : HM Elem Unit} (hS : StringsFit env.src) (hB : m = .javascript → BracesFit env.src)
    (g : Good (R m env) env s) (hA : AgainOk m env s.rem.length again) : Step m env s (expectJsxIn m again) True := by
  cases m with
  | javascript => exact expectJsx_spec rfl hS (hB rfl) g hA
  | typescript =>
    unfold Step expectJsxIn
    dsimp only
    rw [wp_pure]
    exact Or.inr ⟨rfl, rfl, trivial⟩

/-! ## Tokens -/

theorem Step.or {f g : HM Elem Bool} {F G : Prop} (hf : Step m env s f F) (hg : F → Step m env s g (F ∧ G)) :
    Step m env s (HM.or f g) (F ∧ G) := by
  unfold Step
  refine wp_step_or (wp_mono hf ?_)
  rintro _ s1 (⟨rfl, h⟩ | ⟨rfl, rfl, h⟩)
  · exact Or.inl ⟨rfl, h⟩
  · exact hg h

theorem Step.imp {f : HM Elem Bool} {F G : Prop} (hf : Step m env s f F) (h : F → G) : Step m env s f G := by
  refine wp_mono hf ?_
  rintro _ s1 (⟨rfl, h'⟩ | ⟨rfl, rfl, h'⟩)
  · exact Or.inl ⟨rfl, h'⟩
  · exact Or.inr ⟨rfl, rfl, h h'⟩

theorem Step.both {f g : HM Elem Bool} {F G : Prop} (hf : Step m env s f F) (hg : Step m env s g G) :
    Step m env s (HM.or f g) (F ∧ G) :=
  hf.or fun h => hg.imp fun h' => ⟨h, h'⟩

theorem consumeToken_spec {again : HM Elem Unit} (hS : StringsFit env.src) (hB : m = .javascript → BracesFit env.src)
    (g : Good (R m env) env s) (h0 : s.rem ≠ []) (hA : AgainOk m env s.rem.length again) :
    wp (consumeToken m again) (fun _ s' => Good (R m env) env s' ∧ s.idx < s'.idx ∧
      (s.ext ≠ .hashbang → Exact s s')) env s := by
  unfold consumeToken
  rw [wp_bind]
  refine wp_mono ((expectWhitespace_spec g).both <| (expectHashbang_spec g).both <| (expectLineComment_spec g).both <|
    (expectBlockComment_spec g).both <| (expectJsxIn_spec hS hB g hA).both <| (expectStringLiteral_spec hS g).both <|
    (expectTemplate_spec g hA).both <| (expectRegex_spec g).both <| (expectNumber_spec g).both <|
    (expectPrivateIdentifier_spec g).both <| (expectIdentifier_spec g).both (expectSymbol_spec g)) ?_
  rintro _ s1 (⟨rfl, g1, i1, x1⟩ | ⟨rfl, rfl, h1, _, _, _, _, h2, h3, _, h4, _, h5, h6⟩)
  · rw [if_pos rfl, wp_pure]
    exact ⟨g1, i1, x1⟩
  · rw [if_neg (by simp)]
    obtain ⟨c, t, hr⟩ := List.exists_cons_of_ne_nil h0
    have hrl : s1.rem.length = t.length + 1 := by rw [hr]; rfl
    have hc : s1.rem[0]? = some c := by rw [hr]; rfl
    unfold consumeError
    rw [wp_bind]
    refine wp_step_emitAdv g (by omega) (by omega) (by simp) (Tok.unknown rfl h5 ?_ ?_) fun s2 g2 l2 e2 i2 x2 => ?_
    · intro w hw ho
      exact h6 w hw (occursAt_zero.1 ho)
    · intro b hb
      refine ⟨h4 b hb, ?_⟩
      have hb' : b = c := Option.some_inj.1 (hb.symm.trans hc)
      subst hb'
      intro hm
      have hq := h2 b hb
      have ht : b ≠ c!"`" := fun h => h3 (by rw [hb, h])
      rw [hr] at h1
      simp at hm hq
      have key : b = 0x20 ∨ b = 0x09 ∨ b = 0x0A ∨ b = 0x0D := by grind
      clear hm hq
      rcases key with rfl | rfl | rfl | rfl <;>
        exact (noFirst_ascii (by decide)).1 h1 (Or.inl (by decide))
    refine wp_step_set g2 fun s3 g3 l3 e3 i3 x3 => ?_
    refine ⟨g3, by omega, fun _ => ?_⟩
    by_cases hb : c ∈ b!"{}`/<"
    · exact Or.inl ⟨c, hc, hb⟩
    · refine exact_simple (n := 1) (by omega) (by rw [x3]; simp) ?_
      have hq := h2 c hc
      rw [hr]
      simp only [List.take_succ_cons, List.take_zero, List.mem_singleton, forall_eq]
      unfold Simple
      simp at hb hq ⊢
      grind

/-! ## Code in braces -/

/-- What is left of simple code, after passing some of it. -/
def Left (level : Int) (t : Bytes) (s : HS Elem) : Prop :=
  ∃ (n : Nat) (w : Bytes), level = n ∧ Inside n w t s.rem ∧ s.ext ≠ .hashbang

theorem left_exact {level : Int} {t : Bytes} {s' : HS Elem} (h : Left level t s) (g : Good (R m env) env s)
    (g' : Good (R m env) env s') (hi : s.idx < s'.idx) (hx : Exact s s')
    (h1 : s.rem[0]? ≠ some c!"{") (h2 : s.rem[0]? ≠ some c!"}") : Left level t s' := by
  obtain ⟨n, w, hn, hI, he⟩ := h
  have l := g.len
  have l' := g'.len
  have er : s'.rem = s.rem.drop (s'.idx - s.idx) := by
    rw [g'.rem, g.rem, List.drop_drop]
    congr 1
    omega
  rcases hx with ⟨c, hc, hm⟩ | ⟨hx, h3 | ⟨q, hc, hq, h3⟩⟩
  · exfalso
    obtain ⟨d, hd, hm'⟩ := inside_first hI
    have : d = c := Option.some_inj.1 (hd.symm.trans hc)
    subst this
    rw [hc] at h1 h2
    simp at h1 h2 hm hm'
    grind
  · obtain ⟨h4, h5⟩ := inside_simple hI (k := s'.idx - s.idx) (by omega) h3
    exact ⟨n, _, hn, by rw [er]; exact h5, hx⟩
  · have hq' : q ≠ c!"}" := by rintro rfl; exact absurd hq (by decide)
    cases w with
    | nil =>
      rw [hI.eq] at hc
      simp at hc
      exact absurd hc.symm hq'
    | cons d w =>
      have hd := hI.eq
      rw [hd] at hc
      simp at hc
      subst hc
      obtain ⟨k, h4, h5, h6⟩ := nest_string hq hI.nest (c!"}" :: t)
      rw [hd, List.cons_append, h4] at h3
      simp only at h3
      refine ⟨n, w.drop k, hn, ⟨?_, h6⟩, hx⟩
      rw [er, hd, show s'.idx - s.idx = k + 1 by omega, List.cons_append, List.drop_succ_cons,
        List.drop_append_of_le_length h5]

theorem bracesStep_spec {again : HM Elem Unit} (hS : StringsFit env.src) (hB : m = .javascript → BracesFit env.src)
    (g : Good (R m env) env s) (hA : AgainOk m env s.rem.length again) {level : Int} :
    wp (bracesStep m again level) (fun r s' => match r with
      | .inl level' => Good (R m env) env s' ∧ s.idx < s'.idx ∧ ∀ t, Left level t s → Left level' t s'
      | .inr _ => s' = s ∧ (s.rem = [] ∨ startsWith s.rem b!"}" = true ∧ level < 1)) env s := by
  unfold bracesStep
  rw [wp_bind, wp_rem]
  split
  · rename_i hr
    rw [wp_pure]
    exact ⟨rfl, Or.inl hr⟩
  rename_i c t hr
  have hrl : s.rem.length = t.length + 1 := by rw [hr]; rfl
  split
  · rename_i hc
    subst hc
    rw [wp_bind]
    refine wp_step_emitAdv g (by omega) (by omega) (by simp) (Tok.brace (by rw [hr]; simp)) fun s1 g1 l1 e1 i1 x1 => ?_
    rw [wp_bind]
    refine wp_step_set g1 fun s2 g2 l2 e2 i2 x2 => ?_
    rw [wp_pure]
    refine ⟨g2, by omega, ?_⟩
    rintro u ⟨n, w, hn, hI, he⟩
    have hd := hI.eq
    cases w with
    | nil => rw [hr] at hd; simp at hd
    | cons d w =>
      rw [hr] at hd
      simp at hd
      obtain ⟨rfl, hd⟩ := hd
      exact ⟨n + 1, w, by omega, ⟨by rw [e2, e1, hr, hd]; rfl, nest_open hI.nest⟩, by rw [x2]; simp⟩
  split
  · rename_i hc
    subst hc
    split
    · rw [wp_pure]
      exact ⟨rfl, Or.inr ⟨by rw [hr]; simp, by omega⟩⟩
    · rw [wp_bind]
      refine wp_step_emitAdv g (by omega) (by omega) (by simp) (Tok.brace (by rw [hr]; simp)) fun s1 g1 l1 e1 i1 x1 => ?_
      rw [wp_bind]
      refine wp_step_set g1 fun s2 g2 l2 e2 i2 x2 => ?_
      rw [wp_pure]
      refine ⟨g2, by omega, ?_⟩
      rintro u ⟨n, w, hn, hI, he⟩
      have hd := hI.eq
      cases w with
      | nil => have := nest_nil hI.nest; omega
      | cons d w =>
        rw [hr] at hd
        simp at hd
        obtain ⟨rfl, hd⟩ := hd
        obtain ⟨k, rfl, hk⟩ := nest_close hI.nest
        exact ⟨k, w, by omega, ⟨by rw [e2, e1, hr, hd]; rfl, hk⟩, by rw [x2]; simp⟩
  · rename_i h1 h2
    rw [wp_bind]
    refine wp_mono (consumeToken_spec hS hB g (by rw [hr]; simp) hA) ?_
    rintro _ s1 ⟨g1, i1, x1⟩
    rw [wp_pure]
    refine ⟨g1, i1, fun u hL => ?_⟩
    obtain ⟨_, _, _, _, he⟩ := id hL
    exact left_exact hL g g1 i1 (x1 he) (by rw [hr]; simpa using h1) (by rw [hr]; simpa using h2)

/-- Recursive calls behave well, whatever the depth. -/
theorem beforeBrace_ok (hS : StringsFit env.src) (hB : m = .javascript → BracesFit env.src) :
    ∀ n, AgainOk m env n (beforeBrace m n)
  | 0 => fun s _ h => by omega
  | n + 1 => by
    intro s g hl
    unfold beforeBrace
    rw [wp_bind]
    refine wp_step_set g fun s1 g1 l1 e1 i1 x1 => ?_
    rw [wp_bind, wp_rem]
    rw [← e1] at hl
    rw [← e1, ← i1]
    have l := g1.len
    refine wp_mono (wp_loop (Q := fun _ s' => Good (R m env) env s' ∧ s1.idx ≤ s'.idx ∧
        ∃ level : Int, (s'.rem = [] ∨ startsWith s'.rem b!"}" = true ∧ level < 1) ∧
          ∀ w t, s1.rem = w ++ b!"}" ++ t → Code w → Left level t s')
      (fun level s' => Good (R m env) env s' ∧ s1.idx ≤ s'.idx ∧
        ∀ w t, s1.rem = w ++ b!"}" ++ t → Code w → Left level t s') (fun _ s' => s'.rem.length) ?_ _ 0 s1
      ⟨g1, by omega, ?_⟩ (by omega)) ?_
    · rintro level s2 ⟨g2, i2, h2⟩
      have l2 := g2.len
      refine wp_mono (bracesStep_spec hS hB g2 ((beforeBrace_ok hS hB n).mono (by omega))) ?_
      rintro (level' | a) s3 h3
      · obtain ⟨g3, i3, h4⟩ := h3
        have l3 := g3.len
        exact ⟨⟨g3, by omega, fun w t hw hc => h4 t (h2 w t hw hc)⟩, by omega⟩
      · obtain ⟨rfl, h4⟩ := h3
        exact ⟨g2, i2, level, h4, h2⟩
    · intro w t hw hc
      exact ⟨0, w, rfl, ⟨by rw [hw]; simp, .zero hc⟩, by rw [x1]; simp⟩
    · rintro _ s2 ⟨g2, i2, level, h3, h2⟩
      refine ⟨g2, i2, h3.imp_right And.left, fun w t hw hc => ?_⟩
      obtain ⟨n, v, hn, hI, _⟩ := h2 w t hw hc
      have hd := hI.eq
      rcases h3 with h3 | ⟨h3, h4⟩
      · rw [h3] at hd; simp at hd
      · cases v with
        | nil => rw [hd]; rfl
        | cons d v =>
          have := get_of_startsWith h3
          rw [hd] at this
          simp at this
          subst this
          obtain ⟨k, rfl, _⟩ := nest_close hI.nest
          omega

/-- The tokens of a source. -/
theorem highlight_tiles (m : Dialect) (debug : Bool) (opts : Opts) (src : Bytes) (hS : StringsFit src)
    (hB : m = .javascript → BracesFit src) :
    ∃ es, highlight m debug opts src = .ok (true, es) ∧
      Tiles (rules m src) src src.length (es.map Emit.token) := by
  have := run_of_wp (m := run m) (ext := Elem.hashbang) (R := rules m src) (debug := debug) (opts := opts) (src := src)
    (P := fun b => b = true) ?_
  · obtain ⟨good, es, h1, rfl, h2⟩ := this
    exact ⟨es, h1, h2⟩
  · intro s g hr hi he
    unfold run
    rw [wp_bind, wp_rem, wp_bind]
    refine wp_while_moved (R := rules m src) (fun _ => True) ?_ g trivial (by omega) ?_
    · intro s1 g1 l1 i1 h1 _
      have l := g.len
      refine wp_mono (consumeToken_spec (m := m) (env := ⟨debug, opts.seen, src⟩) hS hB g1 h1
        ((beforeBrace_ok hS hB _).mono (by omega))) ?_
      rintro _ s2 ⟨g2, i2, _⟩
      exact ⟨g2, i2, trivial⟩
    · intro s' g' l' i' e' _
      rw [wp_pure]
      exact ⟨g', e', rfl⟩

/-! ## The property -/

/-- Every token of TypeScript source code is what its type says, and so is the text without tokens. -/
theorem C52_typescript_tokens (debug : Bool) (opts : Opts) (src : Bytes) (h : StringsFit src) :
    ∃ es, highlight .typescript debug opts src = .ok (true, es) ∧
      Tiles (rules .typescript src) src src.length (es.map Emit.token) :=
  highlight_tiles .typescript debug opts src h (by simp)

/-- Every token of JavaScript source code is what its type says, and so is the text without tokens. -/
theorem C52_javascript_tokens (debug : Bool) (opts : Opts) (src : Bytes) (h : StringsFit src) (hB : BracesFit src) :
    ∃ es, highlight .javascript debug opts src = .ok (true, es) ∧
      Tiles (rules .javascript src) src src.length (es.map Emit.token) :=
  highlight_tiles .javascript debug opts src h fun _ => hB

theorem esc_simple {c : UInt8} {t : Bytes} (hx : c ≠ c!"x" ∧ c ≠ c!"u") :
    ∃ n, Extent (c!"\\" :: c :: t) n ∧ 2 ≤ n ∧ n ≤ t.length + 2 ∧ ∀ d ∈ ((c!"\\" :: c :: t).take n).drop 2, Octal d := by
  have hf := matchEscape_facts c t
  refine ⟨_, hf.extent, hf.two, by simpa using hf.le, ?_⟩
  have hlen := hf.two
  have hle := hf.le
  have hg : GoodEsc (c!"\\" :: c :: t) (matchEscape (c!"\\" :: c :: t)).length := by
    generalize hs : c!"\\" :: c :: t = s at hf
    have := hf.extent
    generalize (matchEscape s).length = n at this
    cases this with
    | hex => simp at hs; exact absurd hs.1 hx.1
    | unicode => simp at hs; exact absurd hs.1 hx.2
    | codePoint => simp at hs; exact absurd hs.1 hx.2
    | other h g => exact g
  generalize (matchEscape (c!"\\" :: c :: t)).length = n at hg hlen hle
  have key : ∀ w : Bytes, Esc (c!"\\" :: c :: w) → ∀ d ∈ w, Octal d := by
    intro w hw
    generalize hs : c!"\\" :: c :: w = s at hw
    cases hw with
    | hex => simp at hs; exact absurd hs.1 hx.1
    | unicode => simp at hs; exact absurd hs.1 hx.2
    | codePoint => simp at hs; exact absurd hs.1 hx.2
    | octal h =>
      simp at hs
      obtain ⟨rfl, rfl⟩ := hs
      exact fun d hd => h d (List.mem_cons_of_mem _ hd)
    | simple h => simp at hs; rw [hs.2]; simp
  obtain ⟨_, h1 | ⟨h1, h2⟩, _⟩ := hg
  · obtain ⟨k, rfl⟩ : ∃ k, n = k + 2 := ⟨n - 2, by omega⟩
    exact key (t.take k) h1
  · rw [h1, List.take_length]
    exact fun d hd => key (t ++ b!"}") h2 d (List.mem_append_left _ hd)

theorem octal_ne {d : UInt8} (h : Octal d) : d ≠ 0x27 ∧ d ≠ 0x22 ∧ d ≠ 0x0A ∧ d ≠ 0x5C := by
  unfold Octal at h
  refine ⟨?_, ?_, ?_, ?_⟩ <;> rintro rfl <;> simp at h

/-- Strings are fine if there are no hexadecimal escape sequences. -/
theorem stringsFit_simple {src : Bytes} (h : ∀ k c, OccursAt [c!"\\", c] src k → c ≠ c!"x" ∧ c ≠ c!"u") :
    StringsFit src := by
  intro k q t hk hq
  have hsub : ∀ j c, OccursAt [c!"\\", c] t j → c ≠ c!"x" ∧ c ≠ c!"u" := by
    intro j c ho
    refine h (k + 1 + j) c ?_
    obtain ⟨h1, h2⟩ := occursAt_iff.1 ho
    have ht : src.drop (k + 1) = t := by rw [← List.drop_drop, hk]; rfl
    refine occursAt_iff.2 ⟨?_, ?_⟩
    · have := congrArg List.length hk
      simp at this
      omega
    · rw [← List.drop_drop, ht]
      exact h2
  clear hk h
  induction hn : t.length using Nat.strongRecOn generalizing t with
  | _ n ih =>
  subst hn
  cases t with
  | nil => exact .done
  | cons c t =>
    by_cases h1 : c = q ∨ c = 0x0A
    · exact .stop h1
    by_cases h2 : c = c!"\\"
    · subst h2
      cases t with
      | nil => exact .backslash
      | cons c t =>
        have hx := hsub 0 c (occursAt_zero.2 (by simp))
        obtain ⟨n, h3, h4, h5, h6⟩ := esc_simple (t := t) hx
        refine .escape h3 (fun d hd => ?_) ?_
        · have := h6 d hd
          have hd' : d ≠ 0x27 ∧ d ≠ 0x22 ∧ d ≠ 0x0A ∧ d ≠ 0x5C := by
            exact octal_ne this
          simp at hq
          grind
        · refine ih _ ?_ _ ?_ rfl
          · simp; omega
          · intro j d ho
            refine hsub (n + j) d ?_
            obtain ⟨h7, h8⟩ := occursAt_iff.1 ho
            refine occursAt_iff.2 ⟨by simp at h7 ⊢; omega, by rwa [List.drop_drop] at h8⟩
    · refine .char ⟨fun h => h1 (Or.inl h), fun h => h1 (Or.inr h), h2⟩ (ih _ (by simp) _ ?_ rfl)
      intro j d ho
      exact hsub (j + 1) d (occursAt_succ.2 ho)

/-- Braces are fine if there is no `<`. -/
theorem bracesFit_simple {src : Bytes} (h : c!"<" ∉ src) : BracesFit src := by
  intro i k _ hi _
  exact absurd (List.mem_of_getElem? hi) h

/-- A test for `Body`. -/
def bodyFits (q : UInt8) : Nat → Bytes → Bool
  | 0, _ => false
  | _ + 1, [] => true
  | fuel + 1, c :: t =>
    if c = q ∨ c = 0x0A then true
    else if c ≠ c!"\\" then bodyFits q fuel t
    else if t = [] then true
    else
      let n := (matchEscape (c :: t)).length
      (((c :: t).take n).drop 2).all (fun d => d ≠ q ∧ d ≠ 0x0A ∧ d ≠ c!"\\") && bodyFits q fuel ((c :: t).drop n)

theorem bodyFits_sound {q : UInt8} : ∀ (fuel : Nat) (t : Bytes), bodyFits q fuel t = true → Body q t
  | 0, _, h => by simp [bodyFits] at h
  | fuel + 1, [], _ => .done
  | fuel + 1, c :: t, h => by
    unfold bodyFits at h
    split at h
    · exact .stop ‹_›
    rename_i h1
    split at h
    · rename_i h2
      exact .char ⟨fun h => h1 (Or.inl h), fun h => h1 (Or.inr h), h2⟩ (bodyFits_sound fuel t h)
    rename_i h2
    have h2 : c = c!"\\" := by simpa using h2
    subst h2
    split at h
    · rename_i h3
      subst h3
      exact .backslash
    rename_i h3
    obtain ⟨d, t, rfl⟩ := List.exists_cons_of_ne_nil h3
    simp only [Bool.and_eq_true, List.all_eq_true, decide_eq_true_eq] at h
    exact .escape (matchEscape_facts d t).extent h.1 (bodyFits_sound fuel _ h.2)

/-- A test for `StringsFit`. -/
def stringsFit : Bytes → Bool
  | [] => true
  | c :: t => (c ∉ b!"'\"" || bodyFits c (t.length + 1) t) && stringsFit t

theorem stringsFit_sound : ∀ {src : Bytes}, stringsFit src = true → StringsFit src
  | [], _ => by intro k q t h; simp at h
  | c :: src, h => by
    unfold stringsFit at h
    simp only [Bool.and_eq_true, Bool.or_eq_true, decide_eq_true_eq] at h
    intro k q t hk hq
    cases k with
    | zero =>
      simp at hk
      obtain ⟨rfl, rfl⟩ := hk
      exact bodyFits_sound _ _ (h.1.resolve_left fun h => h hq)
    | succ k => exact stringsFit_sound h.2 k q t hk hq

/-- What is highlighted. -/
def tokensOf (m : Dialect) (src : Bytes) : Except Fault (List Token) :=
  (highlight m true {} src).map (fun r => r.2.map Emit.token)

instance : DecidableEq (Except Fault (List Token)) := Html.instDecidableEqExceptFaultListToken

/-- Example source code. -/
def sample : Bytes := b!"#!a\nlet x = `a${ {b:1} }\\n`; // c\nreturn /r/g(\"\\x41\") <a b={c}>t&amp;</a>"

example : tokensOf .javascript sample =
    .ok [⟨0, 2, .comment_delim⟩, ⟨2, 1, .comment⟩, ⟨4, 3, .keyword⟩, ⟨8, 1, .name⟩, ⟨10, 1, .symbol_op⟩,
      ⟨12, 1, .string_delim⟩, ⟨13, 1, .string⟩, ⟨14, 2, .string_interpolation_delim⟩, ⟨17, 1, .symbol_brace⟩,
      ⟨18, 1, .name⟩, ⟨19, 1, .symbol_op⟩, ⟨20, 1, .number⟩, ⟨21, 1, .symbol_brace⟩,
      ⟨23, 1, .string_interpolation_delim⟩, ⟨24, 2, .string_escape⟩, ⟨26, 1, .string_delim⟩, ⟨27, 1, .symbol_punc⟩,
      ⟨29, 2, .comment_delim⟩, ⟨31, 2, .comment⟩, ⟨34, 6, .keyword_control⟩, ⟨41, 1, .string_delim⟩, ⟨42, 1, .string⟩,
      ⟨43, 1, .string_delim⟩, ⟨44, 1, .string_decor⟩, ⟨45, 1, .symbol_parens⟩, ⟨46, 1, .string_delim⟩,
      ⟨47, 4, .string_escape⟩, ⟨51, 1, .string_delim⟩, ⟨52, 1, .symbol_parens⟩, ⟨54, 1, .symbol_punc⟩,
      ⟨55, 1, .markup_tag⟩, ⟨57, 1, .markup_tag⟩, ⟨58, 1, .symbol_punc⟩, ⟨59, 1, .symbol_brace⟩, ⟨60, 1, .name⟩,
      ⟨61, 1, .symbol_brace⟩, ⟨62, 1, .symbol_punc⟩, ⟨64, 5, .string_escape⟩, ⟨69, 1, .symbol_punc⟩,
      ⟨70, 1, .symbol_punc⟩, ⟨71, 1, .markup_tag⟩, ⟨72, 1, .symbol_punc⟩] := by decide +kernel

/-- The source code of the example meets the conditions of the theorem. -/
example : StringsFit sample ∧ BracesFit sample := by
  refine ⟨stringsFit_sound (by decide +kernel), ?_⟩
  have h1 : ∀ i < sample.length, sample[i]? = some c!"<" → 54 ≤ i := by decide +kernel
  have h2 : ∀ k < sample.length, sample[k]? = some c!"{" → k < 54 ∨ k = 59 := by decide +kernel
  intro i k hik hi hk
  have hi := h1 i (List.getElem?_eq_some_iff.1 hi).1 hi
  have hk := (h2 k (List.getElem?_eq_some_iff.1 hk).1 hk).resolve_left (by omega)
  subst hk
  exact ⟨b!"c", b!">t&amp;</a>", by decide +kernel, .char (by decide) .nil⟩

example : tokensOf .typescript b!"class A { @d #p: number = 0x1F_n; }" =
    .ok [⟨0, 5, .keyword⟩, ⟨6, 1, .name⟩, ⟨8, 1, .symbol_brace⟩, ⟨10, 1, .symbol_punc⟩, ⟨11, 1, .name⟩, ⟨13, 2, .name⟩,
      ⟨15, 1, .symbol_op⟩, ⟨17, 6, .name_type_builtin⟩, ⟨24, 1, .symbol_op⟩, ⟨26, 2, .number_decor⟩, ⟨28, 2, .number⟩,
      ⟨30, 1, .number_delim⟩, ⟨31, 1, .number_decor⟩, ⟨32, 1, .symbol_punc⟩, ⟨34, 1, .symbol_brace⟩] := by decide +kernel

/-- An escape sequence in a string that ends too early, as in `"\x"`, makes the highlighter read beyond the
end of the text: without the condition, the property does not hold. -/
theorem C52_strings_needed (m : Dialect) : tokensOf m b!"\"\\x\"" = .error .outOfBounds ∧
    tokensOf m b!"\"\\x\"; let a = 1" = .error .outOfBounds ∧ ¬ StringsFit b!"\"\\x\"" := by
  refine ⟨by cases m <;> decide +kernel, by cases m <;> decide +kernel, fun h => ?_⟩
  obtain ⟨es, h1, _⟩ := C52_typescript_tokens true {} _ h
  have h2 : tokensOf .typescript b!"\"\\x\"" = .error .outOfBounds := by decide +kernel
  unfold tokensOf at h2
  rw [h1] at h2
  cases h2

/-- A template literal that goes beyond the braces of a JSX attribute makes an assertion fail: without the
condition, the property does not hold. -/
theorem C52_braces_needed : tokensOf .javascript b!"<a b={`}/>" = .error .assert ∧
    StringsFit b!"<a b={`}/>" ∧ ¬ BracesFit b!"<a b={`}/>" := by
  have h2 : tokensOf .javascript b!"<a b={`}/>" = .error .assert := by decide +kernel
  have h3 : StringsFit b!"<a b={`}/>" := stringsFit_sound (by decide +kernel)
  refine ⟨h2, h3, fun h => ?_⟩
  obtain ⟨es, h1, _⟩ := C52_javascript_tokens true {} _ h3 h
  unfold tokensOf at h2
  rw [h1] at h2
  cases h2

/-- Text that is not highlighted as it should be.
* A hashbang comment can be anywhere before the first token, and there can be many.
* The letter `ក` is whitespace, unless it is within a name.
* A `/` in brackets ends a regular expression.
* A carriage return is a line terminator, but not one that can be escaped in a template literal.
* The second line of a string, after an escaped CRLF, is not highlighted as a string. -/
theorem C52_differences :
    tokensOf .javascript b!"  #!a\n#!b" = .ok [⟨2, 2, .comment_delim⟩, ⟨4, 1, .comment⟩, ⟨6, 2, .comment_delim⟩,
      ⟨8, 1, .comment⟩] ∧
    tokensOf .javascript [0xE1, 0x9E, 0x80] = .ok [] ∧
    tokensOf .javascript b!"/[/]/" = .ok [⟨0, 1, .string_delim⟩, ⟨1, 1, .string⟩, ⟨2, 1, .string_delim⟩,
      ⟨3, 1, .symbol_square⟩, ⟨4, 1, .symbol_op⟩] ∧
    tokensOf .javascript b!"`a\\\rb`" = .ok [⟨0, 1, .string_delim⟩, ⟨1, 1, .string⟩, ⟨2, 2, .string_escape⟩,
      ⟨4, 1, .string⟩, ⟨5, 1, .string_delim⟩] ∧
    tokensOf .javascript b!"\"\\\r\na\"" = .ok [⟨0, 1, .string_delim⟩, ⟨1, 2, .string_escape⟩, ⟨4, 1, .name⟩,
      ⟨5, 1, .string_delim⟩] := by
  refine ⟨by decide +kernel, by decide +kernel, by decide +kernel, by decide +kernel, by decide +kernel⟩

/-- Words are looked up as the specification says. -/
theorem C33_js (m : Dialect) (w : Bytes) (ty : HT) : highlightByCode m w = some ty ↔ (w, ty) ∈ words m :=
  highlightByCode_iff m w ty

example : highlightByCode .typescript b!"interface" = some .keyword ∧
    highlightByCode .javascript b!"interface" = none ∧ highlightByCode .javascript b!"while" = some .keyword_control := by
  decide +kernel

/-- `"\é"`: a character is cut. -/
theorem C31_js_splits (m : Dialect) : IsUtf8 [0x22, 0x5C, 0xC3, 0xA9, 0x22] ∧
    tokensOf m [0x22, 0x5C, 0xC3, 0xA9, 0x22] = .ok [⟨0, 1, .string_delim⟩, ⟨1, 2, .string_escape⟩, ⟨3, 1, .string⟩,
      ⟨4, 1, .string_delim⟩] ∧
    ¬ IsUtf8 (([0x22, 0x5C, 0xC3, 0xA9, 0x22].drop 3).take 1) := by
  exact ⟨⟨[0x22, 0x5C, 0xE9, 0x22], by simp [IsScalar], by decide +kernel⟩, by cases m <;> decide +kernel,
    not_isUtf8_one (by decide)⟩

end Js

end Ulight
