import Verif.Props.Program.JavaScriptStrings
import Verif.Hl.Fits

/-!
# C58: lexical elements of JavaScript and TypeScript
-/

namespace Ulight.Js

open Spec Spec.JavaScript

variable {α β : Type} {env : HEnv} {x y z : Elem} {p a a' b : Bytes} {ts us : List Token} {v : α} {m : Dialect}

/-! ## Whitespace and comments -/

theorem space_reads {w : Bytes} (h0 : w ≠ []) (h : LongestChars White (w ++ b) w.length) :
    Reads env expectWhitespace x w [] b true x := by
  have hn := LongestChars.unique (whitespace_facts (w ++ b)).2.1 h
  unfold expectWhitespace
  refine reads_rem ?_
  dsimp only
  rw [hn]
  refine (reads_advance rfl).bind_last ?_
  have : (w.length != 0) = true := by simpa using h0
  rw [this]
  exact reads_pure

theorem space_fail (h : matchWhitespace b = 0) : Reads env expectWhitespace x [] [] b false x := by
  unfold expectWhitespace
  refine reads_rem ?_
  dsimp only
  rw [List.nil_append, h]
  exact (reads_advance rfl).bind_last reads_pure

theorem no_space {s : Bytes} (h : LongestChars White s 0) : matchWhitespace s = 0 :=
  LongestChars.unique (whitespace_facts s).2.1 h

/-- A character that is not whitespace. -/
theorem no_space_ascii {c : UInt8} {t : Bytes} (h : c.toNat < 0x80) (h' : c ∉ [0x09, 0x0A, 0x0B, 0x0C, 0x0D, 0x20]) :
    matchWhitespace (c :: t) = 0 := by
  obtain ⟨-, h2, -⟩ := whitespace_facts (c :: t)
  by_cases hn : matchWhitespace (c :: t) = 0
  · exact hn
  · exfalso
    have hw := (longestChars_bytes h2).1 c (by
      rw [List.mem_iff_getElem?]
      exact ⟨0, by rw [List.getElem?_take_of_lt (by omega)]; rfl⟩) h
    have key : ∀ c : UInt8, c.toNat < 0x80 → White c.toNat → c ∈ [0x09, 0x0A, 0x0B, 0x0C, 0x0D, 0x20] := by
      unfold White InRanges
      apply forall_byte; decide +kernel
    exact h' (key c h hw)

theorem two_parts {o t : Bytes} {ty ty' : HT} (h : o ≠ []) :
    parts 0 [(o, ty), (t, ty')] = [⟨0, o.length, ty⟩] ++ shift o.length (opt 0 t ty') := by
  by_cases ht : t = [] <;> simp [parts, opt, shift, h, ht]

theorem lineText_reads {o t : Bytes} (h : o.length = 2) : Reads env (do
    HM.emitAdv 2 .comment_delim
    HM.emitAdvIf t.length .comment : HM Elem Unit) x (o ++ t) (parts 0 [(o, .comment_delim), (t, .comment)]) b () x := by
  have h0 : o ≠ [] := by rintro rfl; cases h
  rw [two_parts h0, ← h]
  exact Reads.bind (w := ()) (y := x) (reads_emit rfl h0) (reads_emitIf rfl)

theorem then_reads {m : HM Elem Unit} {m' : HM Elem Unit} {f : HM Elem α} (h : Reads env (m >>= fun _ => m') x a ts b () y)
    (h' : Reads env f y [] [] b v z) : Reads env (do m; m'; f) x a ts b v z := by
  have e : (do m; m'; f) = ((m >>= fun _ => m') >>= fun _ => f) := by
    funext env s
    show HM.bind _ _ env s = HM.bind (HM.bind _ _) _ env s
    unfold HM.bind
    cases m env s <;> rfl
  rw [e]
  exact h.bind_last h'

theorem hashbang_reads {t : Bytes} (h : Spec.Js.Line (t ++ b) t.length) : Reads env expectHashbang .hashbang (b!"#!" ++ t)
    (parts 0 [(b!"#!", .comment_delim), (t, .comment)]) b true .hashbang := by
  unfold expectHashbang
  have hm : matchHashbang (b!"#!" ++ t ++ b) = t.length + 2 := by
    have := matchLineComment_eq h
    unfold matchLineComment at this
    unfold matchHashbang
    simpa [startsWith] using this
  refine reads_get (reads_else (by decide) (reads_rem ?_))
  dsimp only
  rw [hm]
  refine reads_else (by omega) ?_
  exact then_reads (lineText_reads rfl) reads_pure

theorem hashbang_fail (h : x = .hashbang → ¬ b!"#!" <+: b) : Reads env expectHashbang x [] [] b false x := by
  unfold expectHashbang
  refine reads_get ?_
  by_cases hx : x = .hashbang
  · subst hx
    refine reads_else (by decide) (reads_rem ?_)
    refine reads_this ?_ reads_pure
    unfold matchHashbang
    rw [if_pos]
    rw [List.nil_append, Bool.not_eq_true', Bool.eq_false_iff, ne_eq, startsWith_iff]
    rintro ⟨t, e⟩
    exact h rfl ⟨t, e.symm⟩
  · refine reads_this ?_ reads_pure
    simp [Elem.hasHashbang, hx]

theorem lineComment_reads {t : Bytes} (h : Spec.Js.Line (t ++ b) t.length) : Reads env expectLineComment x (b!"//" ++ t)
    (parts 0 [(b!"//", .comment_delim), (t, .comment)]) b true .regex := by
  unfold expectLineComment
  have hm := matchLineComment_eq h
  refine reads_rem ?_
  dsimp only
  rw [List.append_assoc, hm]
  refine reads_this (by omega) ?_
  refine Reads.bind_last (w := ()) (y := .regex) ?_ reads_pure
  exact then_reads (lineText_reads rfl) (reads_set reads_pure)

theorem lineComment_fail (h : ¬ b!"//" <+: b) : Reads env expectLineComment x [] [] b false x := by
  unfold expectLineComment
  refine reads_rem (reads_else ?_ reads_pure)
  unfold matchLineComment
  rw [if_pos]
  · simp
  · rw [List.nil_append, Bool.not_eq_true', Bool.eq_false_iff, ne_eq, startsWith_iff]
    rintro ⟨t, e⟩
    exact h ⟨t, e.symm⟩

theorem blockComment_fail (h : ¬ b!"/*" <+: b) : Reads env expectBlockComment x [] [] b false x := by
  unfold expectBlockComment
  refine reads_rem (reads_else ?_ reads_pure)
  intro hc
  obtain ⟨t, e⟩ := startsWith_iff.1 (blockComment_start (by simpa using hc))
  exact h ⟨t, e.symm⟩

theorem reads_of {m : HM Elem α} {es : List Emit} (ht : ts = es.map Emit.token) (h : ∀ i out, i + (a ++ b).length = env.src.length →
      wp m (fun w s => w = v ∧ s = ⟨b, i + a.length, out ++ es.map (Emit.moved i), y⟩) env ⟨a ++ b, i, out, x⟩) :
    Reads env m x a ts b v y := by
  refine ⟨es, ht, fun i out hi => ?_⟩
  obtain ⟨_, _, h, rfl, rfl⟩ := h i out hi
  exact h

theorem blockComment_reads {t : Bytes} (h : UpTo b!"*/" (t ++ b!"*/" ++ b) t.length) :
    Reads env expectBlockComment x (b!"/*" ++ t ++ b!"*/")
      (parts 0 [(b!"/*", .comment_delim), (t, .comment), (b!"*/", .comment_delim)]) b true .regex := by
  refine reads_of (partsEmit_token ..).symm fun i out hi => ?_
  unfold expectBlockComment
  rw [wp_bind, wp_rem, matchBlockComment_eq, Cpp.matchBlockComment_at h]
  dsimp only
  rw [if_pos (by simp), wp_bind]
  unfold highlightBlockComment
  rw [wp_bind]
  refine wp_dassert (by simp) ?_
  rw [wp_bind, Cpp.wp_highlightBlockComment_iff hi (by simp), wp_set_iff, wp_pure]
  refine ⟨rfl, ?_⟩
  have el : t.length + 4 = (b!"/*" ++ t ++ b!"*/").length := by simp
  rw [el, List.drop_left, partsEmit_moved]
  simp [partsEmit, optEmit, HS.withExt, Nat.add_assoc]

theorem openComment_reads {t : Bytes} (h : ∀ k, ¬ OccursAt b!"*/" t k) :
    Reads env expectBlockComment x (b!"/*" ++ t) (parts 0 [(b!"/*", .comment_delim), (t, .comment)]) [] true .regex := by
  refine reads_of (partsEmit_token ..).symm fun i out hi => ?_
  have hm : Cpp.matchBlockComment (b!"/*" ++ t) = ⟨t.length + 2, false⟩ := by
    unfold Cpp.matchBlockComment
    have : findSub b!"*/" t = none := by
      have key := findSub_spec b!"*/" t
      cases hf : findSub b!"*/" t with
      | none => rfl
      | some k =>
        rw [hf] at key
        exact absurd key.1 (h k)
    simp [this, startsWith]
  rw [List.append_nil] at hi ⊢
  unfold expectBlockComment
  rw [wp_bind, wp_rem, matchBlockComment_eq, hm]
  dsimp only
  rw [if_pos (by simp), wp_bind]
  unfold highlightBlockComment
  rw [wp_bind]
  refine wp_dassert (by simp) ?_
  unfold Cpp.highlightBlockComment
  rw [wp_bind, wp_bind, wp_index, wp_bind, wp_emit_iff (by omega) (by simp at hi ⊢; omega), wp_bind]
  simp only [Bool.false_eq_true, if_false, Nat.sub_zero, Nat.add_sub_cancel]
  rw [wp_emitIf_iff (by simp at hi ⊢; omega), wp_bind, Cpp.emitWhen, if_neg (by simp), wp_pure, wp_advance_iff (by simp), wp_set_iff, wp_pure]
  refine ⟨rfl, ?_⟩
  rw [partsEmit_moved]
  simp [partsEmit, optEmit, HS.adv, HS.withExt, Nat.add_assoc]


/-! ## Regular expressions -/

theorem regex_eq {t : Bytes} {n : Nat} (h : Regex t n) (k : Nat) : regexLoop t false k = some (k + n) := by
  induction h generalizing k with
  | done => simp [regexLoop]
  | escape _ ih =>
    simp [regexLoop, ih]
    omega
  | char h l _ ih =>
    rw [lineTerminator_zero] at l
    simp [regexLoop, h, l, ih]
    omega

theorem regex_reads {t f : Bytes} (hx : x ≠ .div) (h0 : t ≠ []) (h1 : t.head? ≠ some c!"*") (h : Regex (t ++ (b!"/" ++ f ++ b)) t.length)
    (hf : LongestChars Part (f ++ b) f.length) : Reads env expectRegex x (b!"/" ++ t ++ b!"/" ++ f)
      (parts 0 [(b!"/", .string_delim), (t, .string), (b!"/", .string_delim), (f, .string_decor)]) b true .div := by
  have hh : t.head? ≠ some c!"/" := by
    intro e
    obtain ⟨c, t, rfl⟩ := List.exists_cons_of_ne_nil h0
    simp at e
    subst e
    have h1 := regex_eq h 0
    simp [regexLoop] at h1
  have hp : parts 0 [(b!"/", .string_delim), (t, .string), (b!"/", .string_delim), (f, .string_decor)] =
      [⟨0, 1, .string_delim⟩] ++ shift 1 ([⟨0, t.length, .string⟩] ++ shift t.length ([⟨0, 1, .string_delim⟩] ++ shift 1
        (opt 0 f .string_decor))) := by
    by_cases hf : f = [] <;> simp [parts, opt, shift, h0, hf] <;> omega
  have ha : b!"/" ++ t ++ b!"/" ++ f = b!"/" ++ (t ++ (b!"/" ++ f)) := by simp
  have hl : matchRegexFlags (f ++ b) = f.length :=
    LongestChars.unique (lengthWhile_spec isPart Part part_iff (f ++ b)).2 hf
  rw [hp, ha]
  unfold expectRegex
  refine reads_get (reads_else (by cases x <;> simp_all [Elem.hasRegex]) (reads_rem (reads_else ?_ ?_)))
  · obtain ⟨c, t, rfl⟩ := List.exists_cons_of_ne_nil h0
    simp at h1 hh
    simp [startsWith, Ne.symm h1, Ne.symm hh]
  · have hr : (b!"/" ++ (t ++ (b!"/" ++ f)) ++ b).drop 1 = t ++ (b!"/" ++ f ++ b) := by simp
    have hd : (t ++ (b!"/" ++ f ++ b)).drop (t.length + 1) = f ++ b := by
      rw [← List.drop_drop, List.drop_left]
      simp
    rw [hr, regex_eq h 0, Nat.zero_add]
    dsimp only
    rw [hd, hl]
    refine Reads.bind (w := ()) (y := x) (reads_emit rfl (by simp)) ?_
    refine Reads.bind (w := ()) (y := x) (reads_emit rfl h0) ?_
    refine Reads.bind (w := ()) (y := x) (reads_emit rfl (by simp)) ?_
    exact (reads_emitIf rfl).bind_last (reads_set reads_pure)

theorem regex_fail (h : x ≠ .div → b.head? = some c!"/" → ¬ Comment b → ∀ n, ¬ Regex (b.drop 1) n) : Reads env expectRegex x [] [] b false x := by
  unfold expectRegex
  refine reads_get ?_
  by_cases hx : x = .div
  · subst hx
    exact reads_this (by decide) reads_pure
  · refine reads_else (by cases x <;> simp_all [Elem.hasRegex]) (reads_rem ?_)
    rw [List.nil_append]
    by_cases hc : (!startsWith b b!"/" || startsWith b b!"/*" || startsWith b b!"//") = true
    · exact reads_this hc reads_pure
    · refine reads_else hc ?_
      simp only [Bool.or_eq_true, Bool.not_eq_true', not_or, Bool.not_eq_false, Bool.not_eq_true] at hc
      obtain ⟨⟨h1, h2⟩, h3⟩ := hc
      obtain ⟨t, rfl⟩ := startsWith_iff.1 h1
      have h := h hx rfl (by
        rintro (⟨u, hu⟩ | ⟨u, hu⟩)
        · rw [← hu] at h3; simp [startsWith] at h3
        · rw [← hu] at h2; simp [startsWith] at h2)
      have : regexLoop ((b!"/" ++ t).drop 1) false 0 = none := by
        cases he : regexLoop ((b!"/" ++ t).drop 1) false 0 with
        | none => rfl
        | some k =>
          obtain ⟨n, -, hn, -⟩ := regex_loop _ _ _ he
          exact absurd hn (h n)
      rw [this]
      exact reads_pure

/-! ## Words -/

theorem ident_eq {s : Bytes} {n : Nat} (h : Ident s n) : matchIdentifier s = n := by
  rcases (matchIdentifier_facts s).2 with ⟨-, h1⟩ | ⟨-, h1, -⟩
  · exact absurd h (h1 n)
  · exact Identifier.unique h1 h

theorem ident_none {s : Bytes} (h : ∀ k, ¬ Ident s k) : matchIdentifier s = 0 := by
  rcases (matchIdentifier_facts s).2 with ⟨h1, -⟩ | ⟨-, h1, -⟩
  · exact h1
  · exact absurd h1 (h _)

theorem ident_ne {w : Bytes} (h : Ident (w ++ b) w.length) : w ≠ [] := by
  obtain ⟨_, _, _, h, _⟩ := Identifier.first h
  exact List.length_pos_iff.1 h

theorem private_reads {w : Bytes} (h : Ident (w ++ b) w.length) :
    Reads env expectPrivateIdentifier x (c!"#" :: w) [⟨0, w.length + 1, .name⟩] b true .div := by
  have h0 := List.length_pos_iff.2 (ident_ne h)
  have hm : matchPrivateIdentifier (c!"#" :: w ++ b) = w.length + 1 := by
    simp [matchPrivateIdentifier, startsWith, ident_eq h, ident_ne h]
    omega
  unfold expectPrivateIdentifier
  refine reads_rem ?_
  dsimp only
  rw [hm]
  refine reads_this (by omega) ?_
  exact (reads_emit (a := c!"#" :: w) rfl (by simp)).bind_last (reads_set reads_pure)

theorem private_fail (h : b.head? = some c!"#" → ∀ k, ¬ Ident (b.drop 1) k) : Reads env expectPrivateIdentifier x [] [] b false x := by
  unfold expectPrivateIdentifier
  refine reads_rem (reads_else ?_ reads_pure)
  unfold matchPrivateIdentifier
  rw [List.nil_append]
  by_cases hs : startsWith b b!"#" = true
  · obtain ⟨t, rfl⟩ := startsWith_iff.1 hs
    have := ident_none (h rfl)
    simp at this
    simp [startsWith, this]
  · simp [hs]

theorem keyword_reads {w : Bytes} {ty : HT} (h : Ident (w ++ b) w.length) (h' : Word m w ty) :
    Reads env (expectIdentifier m) x w [⟨0, w.length, ty⟩] b true (if w ∈ operators then .regex else .div) := by
  have h0 := ident_ne h
  have h1 := List.length_pos_iff.2 h0
  have hk : isExprKeyword w = decide (w ∈ operators) := by
    unfold isExprKeyword operators
    rfl
  unfold expectIdentifier
  refine reads_rem ?_
  dsimp only
  rw [ident_eq h, List.take_left, (highlightByCode_iff m w ty).2 h']
  refine reads_else (by omega) ?_
  dsimp only
  rw [hk]
  refine (reads_emit rfl h0).bind_last ?_
  simp only [decide_eq_true_eq]
  exact reads_set reads_pure

theorem name_reads {w : Bytes} (h : Ident (w ++ b) w.length) (h' : ∀ ty, ¬ Word m w ty) :
    Reads env (expectIdentifier m) x w [⟨0, w.length, .name⟩] b true .div := by
  have h0 := ident_ne h
  have h1 := List.length_pos_iff.2 h0
  have hn : highlightByCode m w = none := by
    cases e : highlightByCode m w with
    | none => rfl
    | some ty => exact absurd ((highlightByCode_iff m w ty).1 e) (h' ty)
  unfold expectIdentifier
  refine reads_rem ?_
  dsimp only
  rw [ident_eq h, List.take_left, hn]
  refine reads_else (by omega) ?_
  exact (reads_emit rfl h0).bind_last (reads_set reads_pure)

theorem identifier_fail (h : ∀ k, ¬ Ident b k) : Reads env (expectIdentifier m) x [] [] b false x := by
  unfold expectIdentifier
  refine reads_rem ?_
  rw [List.nil_append, ident_none h]
  exact reads_this rfl reads_pure

/-! ## Symbols -/

theorem symbol_reads {w : Bytes} {ty : HT} (h : LongestIn symbols (w ++ b) w.length) (h' : Word m w ty) :
    Reads env (expectSymbol m) x w [⟨0, w.length, ty⟩] b true (if w ∈ closing then .div else .regex) := by
  have hw : w ∈ symbols := by simpa using h.1
  have hk : cannotPrecedeRegex w = decide (w ∈ closing) := by
    unfold cannotPrecedeRegex closing
    rfl
  have h0 : w ≠ [] := by
    have : ∀ w ∈ symbols, w ≠ [] := by decide +kernel
    exact this w hw
  unfold expectSymbol
  refine reads_rem ?_
  rcases matchSymbol_facts m (w ++ b) with ⟨w', ty', h1, h2, -, -, h3, -, h4, h5, h6⟩ | ⟨-, h1⟩
  · have hl := longestIn_unique h h5 (by simp) h3
    have : w' = w := by rw [← h4, ← hl, List.take_left]
    subst this
    rw [h1]
    dsimp only
    rw [(highlightByCode_iff m w' ty).2 h']
    dsimp only
    rw [hk]
    refine (reads_emit rfl h0).bind_last ?_
    simp only [decide_eq_true_eq]
    exact reads_set reads_pure
  · exact absurd h' (h1 w hw (startsWith_iff.2 ⟨b, rfl⟩) ty)

theorem symbol_fail (h : ∀ w ∈ symbols, w <+: b → ∀ ty, ¬ Word m w ty) : Reads env (expectSymbol m) x [] [] b false x := by
  unfold expectSymbol
  refine reads_rem ?_
  rw [List.nil_append]
  rcases matchSymbol_facts m b with ⟨w', ty', -, -, -, -, -, h3, h4, -, h6⟩ | ⟨h1, -⟩
  · exact absurd h6 (h w' h3 ⟨b.drop w'.length, by conv => lhs; lhs; rw [← h4]
                                                   simp⟩ ty')
  · cases e : matchSymbol b with
    | none => exact reads_pure
    | some w =>
      dsimp only
      rw [h1 w e]
      exact reads_pure


/-! ## Tags -/

theorem no_start {s : Bytes} (h : ∀ k, ¬ Ident s k) {C : Nat → Prop} (n : Nat) : ¬ Identifier Start C s n := by
  obtain ⟨-, h1⟩ := lengthHeadTail_spec isStart isPart Start Part start_iff part_iff s
  rcases h1 with ⟨-, h1⟩ | ⟨-, h1⟩
  · exact not_identifier h1 n
  · exact absurd h1 (h _)

theorem elementName_none {s : Bytes} (h : ∀ k, ¬ Ident s k) : matchElementName s = 0 := by
  by_cases h0 : matchElementName s = 0
  · exact h0
  · exact absurd ((matchElementName_facts s).2 h0) (no_start h _)

theorem attributeName_none {s : Bytes} (h : ∀ k, ¬ Ident s k) : matchAttributeName s = 0 := by
  by_cases h0 : matchAttributeName s = 0
  · exact h0
  · exact absurd ((matchAttributeName_facts s).2 h0) (no_start h _)

theorem comment_none {s : Bytes} (h : ¬ Comment s) : (matchBlockComment s).length = 0 ∧ matchLineComment s = 0 := by
  constructor
  · by_cases h0 : (matchBlockComment s).length = 0
    · exact h0
    · obtain ⟨t, e⟩ := startsWith_iff.1 (blockComment_start h0)
      exact absurd (Or.inr ⟨t, e.symm⟩) h
  · rcases matchLineComment_spec s with ⟨-, h1⟩ | ⟨t, u, h1, -⟩
    · exact h1
    · exact absurd (Or.inl ⟨t ++ u, by rw [h1.split]; simp⟩) h

theorem space_drop {w r : Bytes} (h : LongestChars White (w ++ r) w.length) : matchWhitespace r = 0 := by
  have h1 := LongestChars.noFirst h
  rw [List.drop_left] at h1
  obtain ⟨-, h2, -⟩ := whitespace_facts r
  by_cases h0 : matchWhitespace r = 0
  · exact h0
  · exfalso
    obtain ⟨u, v, h3, h4, h5, -⟩ := h2
    cases u with
    | nil => simp at h4; omega
    | cons c u =>
      generalize hr : c :: u ++ v = l at h3
      cases h3 with
      | nil => cases hr
      | cons h6 h7 =>
        simp at hr
        refine h1 _ _ _ rfl h6 ?_
        have := h5 c (by simp)
        rwa [hr.1] at this

theorem spaceCalls_none {s : Bytes} (h : matchWhitespace s = 0) (c : ¬ Comment s) (fuel : Nat) : spaceCalls fuel s = [] := by
  obtain ⟨h1, h2⟩ := comment_none c
  cases fuel with
  | zero => rfl
  | succ fuel =>
    unfold spaceCalls
    simp [h, h1, h2]

theorem spaceCalls_white {w r : Bytes} (h : LongestChars White (w ++ r) w.length) (c : ¬ Comment r) :
    callsLength (spaceCalls (w ++ r).length (w ++ r)) = w.length := by
  have hr := space_drop h
  by_cases hw : w = []
  · subst hw
    rw [List.nil_append, spaceCalls_none hr c]
    rfl
  · have hm := LongestChars.unique (whitespace_facts (w ++ r)).2.1 h
    have hp := List.length_pos_iff.2 hw
    obtain ⟨k, hk⟩ : ∃ k, (w ++ r).length = k + 1 := ⟨(w ++ r).length - 1, by simp; omega⟩
    rw [hk]
    unfold spaceCalls
    dsimp only
    rw [if_neg (by simp [hw]), hm, if_pos (by omega), List.drop_left, spaceCalls_none hr c]
    simp [callsLength, JsxCall.length]

theorem startsWith_not {s : Bytes} {c : UInt8} {t : Bytes} (h : s.head? ≠ some c) : startsWith s (c :: t) = false := by
  rw [Bool.eq_false_iff, ne_eq, startsWith_iff]
  rintro ⟨u, rfl⟩
  exact h rfl

theorem attributes_none {v r : Bytes} (hv : LongestChars White (v ++ r) v.length) (h : ∀ k, ¬ Ident r k) (c : ¬ Comment r)
    (h' : ∀ c, r.head? = some c → c ∉ b!">{") (h'' : ¬ b!"/>" <+: r) (fuel : Nat) : (attributes false fuel (v ++ r)).2 = none := by
  cases fuel with
  | zero => rfl
  | succ fuel =>
    unfold attributes
    dsimp only
    split
    · rfl
    have h1 : startsWith r b!">" = false := startsWith_not fun e => absurd (h' _ e) (by decide)
    have h2 : startsWith r b!"/>" = false := by
      rw [Bool.eq_false_iff, ne_eq, startsWith_iff]
      rintro ⟨u, e⟩
      exact h'' ⟨u, e.symm⟩
    have h3 : startsWith r b!"{" = false := startsWith_not fun e => absurd (h' _ e) (by decide)
    rw [spaceCalls_white hv c, List.drop_left, h1, h2, attributeName_none h]
    simp [matchJsxBraced, h3]

theorem tag_none {s : Bytes} (h : NoTag s) : (tagCalls true s).2 = none := by
  cases h with
  | other h =>
    unfold tagCalls
    rw [startsWith_not h]
    rfl
  | @noName w r hw h c h' =>
    have h1 : startsWith r b!">" = false := startsWith_not fun e => absurd (h' _ e) (by decide)
    unfold tagCalls
    dsimp only
    rw [if_neg (by simp), show (b!"<" ++ (w ++ r)).drop 1 = w ++ r from rfl, spaceCalls_white hw c, List.drop_left, h1]
    by_cases h2 : startsWith r b!"/" = true
    · simp [h2]
    · rw [if_neg (by simp), if_neg h2]
      unfold tagName JsxMatch.after
      dsimp only
      rw [elementName_none h]
      refine attributes_none (v := []) ?_ h c h' ?_ _
      · have := (whitespace_facts r).2.1
        rwa [space_drop hw] at this
      · rintro ⟨u, rfl⟩
        exact h2 rfl
  | @name w n v r hw hn hv h c h' h'' =>
    obtain ⟨d, t, e, hp, hd⟩ := Identifier.first hn
    have key : ∀ d : UInt8, (d.toNat < 0x80 → Start d.toNat) → d ≠ c!">" ∧ d ≠ c!"/" := by
      simp only [← start_iff]
      apply forall_byte; decide +kernel
    obtain ⟨k1, k2⟩ := key d hd
    have hc : ¬ Comment (n ++ (v ++ r)) := by
      rintro (⟨u, hu⟩ | ⟨u, hu⟩)
      · rw [e] at hu; simp at hu; exact k2 hu.1.symm
      · rw [e] at hu; simp at hu; exact k2 hu.1.symm
    have h1 : startsWith (n ++ (v ++ r)) b!">" = false := startsWith_not (by rw [e]; simpa using k1)
    have h2 : startsWith (n ++ (v ++ r)) b!"/" = false := startsWith_not (by rw [e]; simpa using k2)
    have hm : matchElementName (n ++ (v ++ r)) = n.length := by
      obtain ⟨-, h4⟩ := lengthHeadTail_spec isStart _ Start ElemPart start_iff elemPart_iff (n ++ (v ++ r))
      rcases h4 with ⟨-, h4⟩ | ⟨-, h4⟩
      · exact absurd hn (not_identifier h4 _)
      · exact Identifier.unique h4 hn
    unfold tagCalls
    dsimp only
    rw [if_neg (by simp), show (b!"<" ++ (w ++ (n ++ (v ++ r)))).drop 1 = w ++ (n ++ (v ++ r)) from rfl, spaceCalls_white hw hc,
      List.drop_left, h1, h2]
    unfold tagName JsxMatch.after
    simp only [Bool.false_eq_true, if_false]
    rw [hm, if_pos (by omega), List.drop_left]
    exact attributes_none hv h c h' h'' _

theorem jsx_fail {again : HM Elem Unit} (h : m = .javascript → NoTag b) : Reads env (expectJsxIn m again) x [] [] b false x := by
  cases m with
  | typescript => exact reads_pure
  | javascript =>
    unfold expectJsxIn expectJsx
    refine reads_rem ?_
    have : matchTag true b = none := by
      unfold matchTag
      dsimp only
      rw [tag_none (h rfl)]
      rfl
    rw [List.nil_append, this]
    exact reads_pure

end Ulight.Js
